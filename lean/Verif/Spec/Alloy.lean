import Verif.Spec.Count

/-! # Specification vocabulary for alloys of several species (independent of the model) -/

namespace Verif.Spec

/-- `m` is an alloy made from `base` by replacing atoms `e`: all other atoms are as in `base`, an atom `e` stays or becomes one of the
listed species, and each listed species occurs the given number of times -/
def Alloy (base : List ℤ) (e : ℤ) (L : List (ℤ × ℕ)) (m : List ℤ) : Prop :=
  m.length = base.length ∧
  (∀ (i : ℕ) (x y : ℤ), base[i]? = some x → m[i]? = some y → (x ≠ e → y = x) ∧ (x = e → y = e ∨ y ∈ L.map Prod.fst)) ∧
  ∀ q ∈ L, m.count q.1 = q.2

/-- `ops` (the answer for the decoration `numbers` of the sites `pos`) brings about all those permutations of the sites among `all` which
keep the decoration, and no others -/
def FindsAll (same : V3 ℚ → V3 ℚ → Prop) (pos : List (V3 ℚ)) (all ops : List Op) (numbers : List ℤ) : Prop :=
  SymContract same pos ops ∧ ∀ σ : Equiv.Perm (Fin pos.length), σ ∈ SiteSyms same pos ops ↔ σ ∈ SiteSyms same pos all ∧ Fixed σ numbers

end Verif.Spec
