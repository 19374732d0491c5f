import Verif.Spec.Doubled

/-! # Vocabulary for C134: the settings of the ternary applications with doubles -/

namespace Verif

/-- the options with the zoom and the bound of the restriction replaced by the nearest doubles -/
def TerOpts.doubled (o : TerOpts) : TerOpts := { o with zoom := o.zoom.map fl64, trs := o.trs.map fun t => (t.1, fl64 t.2) }

namespace Spec

/-- settings of ordinary size with four decimals, the fourth decimal of a coordinate not being 5 -/
structure TameSettings (d : YDoc) : Prop where
  lattice : ∀ l ∈ d.lattice, AllM (fun t => |t| ≤ 100 ∧ Four t) l
  positions : ∀ ps ∈ d.positions, ∀ x ∈ ps, All3 (fun t => |t| ≤ 1 ∧ Four t ∧ Clear (1 / 10 ^ 5) t) x

end Spec

end Verif
