import Verif.Spec.Cell
import Mathlib.Data.Finset.Basic

/-! # Specification vocabulary for site occupation (independent of the model) -/

namespace Verif.Spec

/-- decoration `m` is `base` with the sites in `S` overwritten by `z` -/
def Subst (base : List ℤ) (S : Finset ℕ) (z : ℤ) (m : List ℤ) : Prop :=
  m.length = base.length ∧ ∀ i < base.length, m[i]? = if i ∈ S then some z else base[i]?

/-- decoration `m` is `base` with the sites in `S` overwritten by `z` and those in `T` by `w` -/
def Subst2 (base : List ℤ) (S : Finset ℕ) (z : ℤ) (T : Finset ℕ) (w : ℤ) (m : List ℤ) : Prop :=
  m.length = base.length ∧ ∀ i < base.length, m[i]? = if i ∈ S then some z else if i ∈ T then some w else base[i]?

/-- `b` is `a` with one site `i` changed to `z` -/
def OneSite (a : List ℤ) (i : ℕ) (z : ℤ) (b : List ℤ) : Prop :=
  i < a.length ∧ b.length = a.length ∧ b[i]? = some z ∧ ∀ j, j ≠ i → b[j]? = a[j]?

/-- decoration `b` is the image of decoration `a` under one of the site permutations in the table `P`
(row `p` puts on site `i` what was on site `p[i]`) -/
def Image (P : List (List ℕ)) (a b : List ℤ) : Prop :=
  ∃ p ∈ P, b.length = p.length ∧ ∀ i j : ℕ, p[i]? = some j → b[i]? = a[j]?

end Verif.Spec
