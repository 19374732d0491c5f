import Verif.Spec.Cell
import Mathlib.GroupTheory.Index
import Mathlib.Algebra.Group.Subgroup.Map
import Mathlib.Algebra.Group.Prod

/-! # Specification vocabulary for sublattices and crystals (independent of the model) -/

namespace Verif.Spec

/-- the sublattice of `ℤ³` generated by three vectors -/
def span3 (u v w : V3 ℤ) : AddSubgroup (V3 ℤ) := AddSubgroup.closure {u, v, w}

/-- the sublattice generated by the rows of an integer matrix -/
def rowLattice (m : M3 ℤ) : AddSubgroup (V3 ℤ) := span3 m.1 m.2.1 m.2.2

/-- the action of a rotation matrix on column vectors of fractional (integer) coordinates -/
def rot (r : M3 ℤ) : V3 ℤ →+ V3 ℤ where
  toFun v := (r.1.1 * v.1 + r.1.2.1 * v.2.1 + r.1.2.2 * v.2.2,
    r.2.1.1 * v.1 + r.2.1.2.1 * v.2.1 + r.2.1.2.2 * v.2.2,
    r.2.2.1 * v.1 + r.2.2.2.1 * v.2.1 + r.2.2.2.2 * v.2.2)
  map_zero' := by simp
  map_add' u v := by ext <;> simp <;> ring

/-- an integer matrix with the determinant of a lattice symmetry -/
def Unimodular (r : M3 ℤ) : Prop :=
  r.1.1 * (r.2.1.2.1 * r.2.2.2.2 - r.2.1.2.2 * r.2.2.2.1)
    - r.1.2.1 * (r.2.1.1 * r.2.2.2.2 - r.2.1.2.2 * r.2.2.1)
    + r.1.2.2 * (r.2.1.1 * r.2.2.2.1 - r.2.1.2.1 * r.2.2.1) = 1 ∨
  r.1.1 * (r.2.1.2.1 * r.2.2.2.2 - r.2.1.2.2 * r.2.2.2.1)
    - r.1.2.1 * (r.2.1.1 * r.2.2.2.2 - r.2.1.2.2 * r.2.2.1)
    + r.1.2.2 * (r.2.1.1 * r.2.2.2.1 - r.2.1.2.1 * r.2.2.1) = -1

/-- a finite list of rotations forming a group (acting on `ℤ³`) -/
structure PointGroup (rots : List (M3 ℤ)) : Prop where
  unimodular : ∀ r ∈ rots, Unimodular r
  one : ∃ r ∈ rots, ∀ v, rot r v = v
  mul : ∀ r ∈ rots, ∀ s ∈ rots, ∃ t ∈ rots, ∀ v, rot t v = rot r (rot s v)
  inv : ∀ r ∈ rots, ∃ s ∈ rots, ∀ v, rot s (rot r v) = v

/-- `upper triangular, non-negative entries, positive diagonal` -/
def Triangular (m : M3 ℤ) : Prop :=
  m.2.1.1 = 0 ∧ m.2.2.1 = 0 ∧ m.2.2.2.1 = 0 ∧ 0 < m.1.1 ∧ 0 < m.2.1.2.1 ∧ 0 < m.2.2.2.2 ∧
    0 ≤ m.1.2.1 ∧ 0 ≤ m.1.2.2 ∧ 0 ≤ m.2.1.2.2

/-- no entry is negative -/
def NonNegM (m : M3 ℤ) : Prop :=
  0 ≤ m.1.1 ∧ 0 ≤ m.1.2.1 ∧ 0 ≤ m.1.2.2 ∧ 0 ≤ m.2.1.1 ∧ 0 ≤ m.2.1.2.1 ∧ 0 ≤ m.2.1.2.2 ∧ 0 ≤ m.2.2.1 ∧ 0 ≤ m.2.2.2.1 ∧ 0 ≤ m.2.2.2.2

/-- the Cartesian point with fractional coordinates `x` in the cell with basis vectors the rows of `latt` -/
def cartesian (latt : M3 ℚ) (x : V3 ℚ) : V3 ℚ :=
  (x.1 * latt.1.1 + x.2.1 * latt.2.1.1 + x.2.2 * latt.2.2.1,
   x.1 * latt.1.2.1 + x.2.1 * latt.2.1.2.1 + x.2.2 * latt.2.2.2.1,
   x.1 * latt.1.2.2 + x.2.1 * latt.2.1.2.2 + x.2.2 * latt.2.2.2.2)

/-- the infinite crystal: Cartesian position and element of every atom -/
def CartCrystal (latt : M3 ℚ) (sites : List (V3 ℚ × ℤ)) : Set (V3 ℚ × ℤ) :=
  {s | ∃ t ∈ sites, ∃ k : V3 ℤ,
    s = (cartesian latt (t.1.1 + k.1, t.1.2.1 + k.2.1, t.1.2.2 + k.2.2), t.2)}

/-- cell volume (signed) -/
def volume (m : M3 ℚ) : ℚ :=
  m.1.1 * (m.2.1.2.1 * m.2.2.2.2 - m.2.1.2.2 * m.2.2.2.1)
    - m.1.2.1 * (m.2.1.1 * m.2.2.2.2 - m.2.1.2.2 * m.2.2.1)
    + m.1.2.2 * (m.2.1.1 * m.2.2.2.1 - m.2.1.2.1 * m.2.2.1)

end Verif.Spec
