import Verif.Spec.Symmetry
import Mathlib.Logic.Equiv.Defs

/-! # Specification vocabulary for counting structures (independent of the model) -/

namespace Verif.Spec

/-- the permutations of the sites that the operations bring about -/
def SiteSyms (same : V3 ℚ → V3 ℚ → Prop) (pos : List (V3 ℚ)) (ops : List Op) : Set (Equiv.Perm (Fin pos.length)) :=
  {σ | ∃ op ∈ ops, ∀ i, same (op.image pos[i]) pos[σ i]}

/-- the operations carry every atom onto an atom of the same element -/
def KeepsElements (same : V3 ℚ → V3 ℚ → Prop) (pos : List (V3 ℚ)) (ops : List Op) (numbers : List ℤ) : Prop :=
  ∀ op ∈ ops, ∀ (i j : ℕ) (x y : V3 ℚ), pos[i]? = some x → pos[j]? = some y → same (op.image x) y → numbers[i]? = numbers[j]?

/-- the operations carry every atom onto an atom with the same label -/
def KeepsLabels (same : V3 ℚ → V3 ℚ → Prop) (pos : List (V3 ℚ)) (ops : List Op) (labels : List String) : Prop :=
  ∀ op ∈ ops, ∀ (i j : ℕ) (x y : V3 ℚ), pos[i]? = some x → pos[j]? = some y → same (op.image x) y → labels[i]? = labels[j]?

/-- the decoration `m` does not change under the permutation `σ` of its sites -/
def Fixed {n : ℕ} (σ : Equiv.Perm (Fin n)) (m : List ℤ) : Prop := ∀ i : Fin n, m[((σ i : Fin n) : ℕ)]? = m[(i : ℕ)]?

end Verif.Spec
