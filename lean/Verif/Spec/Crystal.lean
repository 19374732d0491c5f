import Verif.Spec.Symmetry

/-! # Specification vocabulary for crystals with replaced atoms (independent of the model)

Nothing here mentions the order in which sites are stored, indices, or number arrays. -/

namespace Verif.Spec

/-- two coordinates differ by more than 1/1000, whatever whole number is added to one of them -/
def FarMod1 (x y : ℚ) : Prop := ∀ k : ℤ, 1 / 1000 < |x - y - k|

/-- any two sites are more than 1/1000 apart, modulo the lattice, in one of the coordinates -/
def Separated (pos : List (V3 ℚ)) : Prop :=
  pos.Pairwise fun p q => FarMod1 p.1 q.1 ∨ FarMod1 p.2.1 q.2.1 ∨ FarMod1 p.2.2 q.2.2

/-- the crystals obtained from `sites` by turning `n` of the atoms with a permitted element into `z`: the atoms to turn
are marked -/
def Replaced (sites : List (V3 ℚ × ℤ)) (allowed : ℤ → Prop) (n : ℕ) (z : ℤ) : Set (Set (V3 ℚ × ℤ)) :=
  {C | ∃ m : List ((V3 ℚ × ℤ) × Bool), m.map (·.1) = sites ∧ (m.map (·.2)).count true = n ∧
    (∀ x ∈ m, x.2 = true → allowed x.1.2) ∧ C = Crystal (m.map fun x => (x.1.1, if x.2 then z else x.1.2))}

/-- the crystals obtained from `sites` by turning `n` of the atoms into `z` and `k` others into `w` -/
def Replaced2 (sites : List (V3 ℚ × ℤ)) (n : ℕ) (z : ℤ) (k : ℕ) (w : ℤ) : Set (Set (V3 ℚ × ℤ)) :=
  {C | ∃ m : List ((V3 ℚ × ℤ) × Option Bool), m.map (·.1) = sites ∧ (m.map (·.2)).count (some true) = n ∧
    (m.map (·.2)).count (some false) = k ∧
    C = Crystal (m.map fun x => (x.1.1, if x.2 = some true then z else if x.2 = some false then w else x.1.2))}

/-- the list has exactly one crystal from each class of `D` under the operations, and no others -/
def OncePerClass (ops : List Op) (D : Set (Set (V3 ℚ × ℤ))) (out : List (Set (V3 ℚ × ℤ))) : Prop :=
  (∀ C ∈ out, C ∈ D) ∧ ∀ C ∈ D, ∃! i : ℕ, ∃ C', out[i]? = some C' ∧ ∃ op ∈ ops, op.imageSet C' = C

end Verif.Spec
