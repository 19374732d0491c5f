import Verif.Spec.Symmetry

/-! # Specification vocabulary for grids (independent of the model) -/

namespace Verif.Spec

/-- a Python index into `n` places is accepted iff it lies in `[-n, n)` -/
def InRange (n : ℕ) (i : ℤ) : Prop := -(n : ℤ) ≤ i ∧ i < n

/-- two accepted indices mean the same place iff they agree modulo `n` -/
def SamePlace (n : ℕ) (i j : ℤ) : Prop := i % (n : ℤ) = j % (n : ℤ)

/-- a position of a `d × w × l` grid -/
def InGrid (d w l : ℕ) (p : V3 ℤ) : Prop := InRange d p.1 ∧ InRange w p.2.1 ∧ InRange l p.2.2

/-- two positions of a `d × w × l` grid mean the same entry -/
def SameEntry (d w l : ℕ) (p q : V3 ℤ) : Prop := SamePlace d p.1 q.1 ∧ SamePlace w p.2.1 q.2.1 ∧ SamePlace l p.2.2 q.2.2

instance (n : ℕ) (i : ℤ) : Decidable (InRange n i) := by unfold InRange; infer_instance
instance (n : ℕ) (i j : ℤ) : Decidable (SamePlace n i j) := by unfold SamePlace; infer_instance
instance (d w l : ℕ) (p : V3 ℤ) : Decidable (InGrid d w l p) := by unfold InGrid; infer_instance
instance (d w l : ℕ) (p q : V3 ℤ) : Decidable (SameEntry d w l p q) := by unfold SameEntry; infer_instance

/-- what a `d × w × l` grid filled with `base` holds at `p` after a history of writes (oldest first), rejected writes included -/
def lastWritten {α} (d w l : ℕ) (base : α) : List (V3 ℤ × α) → V3 ℤ → α
  | [], _ => base
  | (q, x) :: ws, p =>
    lastWritten d w l (if InGrid d w l q ∧ SameEntry d w l q p then x else base) ws p

/-- entry `[i][j][k]` of a nested list -/
def entry {α} (c : List (List (List α))) (i j k : ℕ) : Option α := ((c[i]?).bind fun p => p[j]?).bind fun r => r[k]?

/-- atomic numbers known to the element table -/
def KnownNumber (n : ℤ) : Prop := (0 ≤ n ∧ n ≤ 56) ∨ (72 ≤ n ∧ n ≤ 88)

/-- a nested list that is a `d × w × l` array -/
def Box {α} (d w l : ℕ) (c : List (List (List α))) : Prop :=
  c.length = d ∧ ∀ plane ∈ c, plane.length = w ∧ ∀ row ∈ plane, row.length = l

/-- fractional coordinates of the site of entry `[c][b][a]` of a `d × w × l` grid -/
def site (d w l c b a : ℕ) : V3 ℚ := ((c : ℚ) / d, (b : ℚ) / w, (a : ℚ) / l)

/-- the operation `op` carries the decorated grid `A` onto the decorated grid `B` (both `d × w × l`): whenever it carries a site onto a
site, in the sense of `same`, the two entries agree -/
def Carries {α} (same : V3 ℚ → V3 ℚ → Prop) (d w l : ℕ) (op : Op) (A B : List (List (List α))) : Prop :=
  ∀ c b a c' b' a' : ℕ, c < d → b < w → a < l → c' < d → b' < w → a' < l →
    same (op.image (site d w l c b a)) (site d w l c' b' a') → entry A c b a = entry B c' b' a'

/-- two decorated grids are equivalent under a list of operations -/
def GridEquiv {α} (same : V3 ℚ → V3 ℚ → Prop) (d w l : ℕ) (ops : List Op) (A B : List (List (List α))) : Prop :=
  ∃ op ∈ ops, Carries same d w l op A B

end Verif.Spec
