import Verif.Model.Binary64Dist
import Verif.Model.Modified

/-! # The sphere query and the clarifiers in double precision

`Model/Modified` decides them with exact numbers. Here the same functions with the IEEE 754 operations numpy and scipy perform (C123).
`sq` stands for the square root of the C library. Simplification: no overflow, infinities and NaN; sums of three terms are added from
left to right. -/

namespace Verif

/-- `in_euclidean_discance(pos, center, r)` (ababe/stru/scaffold.py:600-618) in double precision -/
def inEuclideanDistance64 (sq : ℚ → ℚ) (lattice : M3 ℚ) (pos center : V3 ℚ) (r : ℚ) : Bool :=
  let cartCent := cart64 lattice center
  transList.any fun t =>
    let cartP := cart64 lattice (V3.map fl64 (pos + castV t))
    decide (sq (sqDist64 cartP cartCent) < r)

/-- the `condition` of `get_points_incell_insphere` for one site (ababe/stru/scaffold.py:557-560) in double precision -/
def insphereCond64 (sq : ℚ → ℚ) (lattice : M3 ℚ) (center : V3 ℚ) (r : ℚ) (ele : Option Specie) (s : Site) : Bool :=
  match ele with
  | none => inEuclideanDistance64 sq lattice s.position center r
  | some e => inEuclideanDistance64 sq lattice s.position center r && s.element.pyEq e

/-- `get_points_incell_insphere(center, r, ele)` (ababe/stru/scaffold.py:549-564) in double precision -/
def World.insphere64 (sq : ℚ → ℚ) (w : World) (c : ℕ) (center : V3 ℚ) (r : ℚ) (ele : Option Specie) : List (ℕ × ℕ) :=
  ((w.sitesOf c).zipIdx.filter fun p => insphereCond64 sq (w.cell c).lattice center r ele (w.site p.1)).map fun p => (p.2, p.1)

/-- `AtomRemoveClarifier(centers, r, element).clarify(cell)` (ababe/stru/clarifier.py:18-30) in double precision -/
def atomRemoveClarify64 (sq : ℚ → ℚ) (centers : List (V3 ℚ)) (r : ℚ) (element : Option Specie) (w : World) (c : ℕ) : World :=
  centers.foldl (fun w center =>
    let dsites := w.insphere64 sq c center r element
    w.removeSites c (dsites.map fun p => (p.1 : ℤ))) w

/-- the loop of `VerboseAtomRemoveClarifier.clarify` (ababe/stru/clarifier.py:44-48) in double precision -/
def verboseLoop64 (sq : ℚ → ℚ) (etobesub : Specie) (r : ℚ) (element : Option Specie) (c ref : ℕ) : ℕ → ℕ → World → Option World
  | 0, _, _ => none
  | fuel + 1, k, w =>
    match (w.list ref)[k]? with
    | none => some w
    | some s =>
      if (w.site s).element.pyEq etobesub then
        let center := (w.site s).position
        let dsites := w.insphere64 sq c center r element
        verboseLoop64 sq etobesub r element c ref fuel (k + 1) (w.removeSites c (dsites.map fun p => (p.1 : ℤ)))
      else verboseLoop64 sq etobesub r element c ref fuel (k + 1) w

/-- `VerboseAtomRemoveClarifier(etobesub, r, element).clarify(cell)` (ababe/stru/clarifier.py:35-49) in double precision -/
def verboseClarify64 (sq : ℚ → ℚ) (fuel : ℕ) (etobesub : Specie) (r : ℚ) (element : Option Specie) (w : World) (c : ℕ) : Option World :=
  verboseLoop64 sq etobesub r element c (w.cell c).sitesRef fuel 0 w

end Verif
