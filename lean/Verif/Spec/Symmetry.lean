import Verif.Spec.Cell

/-! # Specification vocabulary for symmetry (independent of the model) -/

namespace Verif.Spec

/-- A space-group operation in fractional coordinates: rotation part and translation part. -/
abbrev Op := M3 ℤ × V3 ℚ

/-- the image of a point -/
def Op.image (g : Op) (x : V3 ℚ) : V3 ℚ :=
  ((g.1.1.1 : ℚ) * x.1 + g.1.1.2.1 * x.2.1 + g.1.1.2.2 * x.2.2 + g.2.1,
   (g.1.2.1.1 : ℚ) * x.1 + g.1.2.1.2.1 * x.2.1 + g.1.2.1.2.2 * x.2.2 + g.2.2.1,
   (g.1.2.2.1 : ℚ) * x.1 + g.1.2.2.2.1 * x.2.1 + g.1.2.2.2.2 * x.2.2 + g.2.2.2)

/-- What spglib promises about the operations of a site list `pos`, for a given notion `same` of "same site":
every operation permutes the sites, and the operations contain the identity, compositions and inverses
(as actions on sites). -/
structure SymContract (same : V3 ℚ → V3 ℚ → Prop) (pos : List (V3 ℚ)) (ops : List Op) : Prop where
  maps : ∀ g ∈ ops, ∀ x ∈ pos, ∃ y ∈ pos, same (g.image x) y
  inj : ∀ g ∈ ops, ∀ x ∈ pos, ∀ y ∈ pos, same (g.image x) (g.image y) → x = y
  one : ∃ g ∈ ops, ∀ x ∈ pos, same (g.image x) x
  mul : ∀ f ∈ ops, ∀ g ∈ ops, ∃ h ∈ ops, ∀ x ∈ pos, ∀ y ∈ pos, ∀ z ∈ pos,
    same (g.image x) y → same (f.image y) z → same (h.image x) z
  inv : ∀ f ∈ ops, ∃ g ∈ ops, ∀ x ∈ pos, ∀ y ∈ pos, same (f.image x) y → same (g.image y) x

/-- The decorated infinite crystal of sites `(position, element)`: all lattice translates of all sites. -/
def Crystal (sites : List (V3 ℚ × ℤ)) : Set (V3 ℚ × ℤ) :=
  {s | ∃ t ∈ sites, Cong t.1 s.1 ∧ s.2 = t.2}

/-- image of a decorated crystal under an operation -/
def Op.imageSet (g : Op) (S : Set (V3 ℚ × ℤ)) : Set (V3 ℚ × ℤ) := {s | ∃ t ∈ S, s = (g.image t.1, t.2)}

/-- Decoration `a` of the sites `pos` is carried onto decoration `b` by one of the operations: as sets of
(reduced position, element), the image of `a` is `b`. `key` reduces a position to its representative. -/
def GeomEquiv (key : V3 ℚ → V3 ℚ) (pos : List (V3 ℚ)) (ops : List Op) (a b : List ℤ) : Prop :=
  ∃ op ∈ ops, ∀ (k : V3 ℚ) (z : ℤ),
    (∃ s ∈ pos.zip a, key (op.image s.1) = k ∧ s.2 = z) ↔ (∃ s ∈ pos.zip b, key s.1 = k ∧ s.2 = z)

/-- `out` is a system of representatives of the classes of `R` on `D`: taken from `D`, every element of `D` related to
one of them, and no two list entries related. -/
def Transversal (R : List ℤ → List ℤ → Prop) (D : Set (List ℤ)) (out : List (List ℤ)) : Prop :=
  (∀ m ∈ out, m ∈ D) ∧ (∀ d ∈ D, ∃ r ∈ out, R r d) ∧ out.Pairwise (fun a b => ¬ R a b ∧ ¬ R b a)

end Verif.Spec
