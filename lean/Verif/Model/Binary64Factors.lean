import Verif.Model.Binary64

/-! # The divisors of the volume with the square root the machine computes

`Model/Grid` takes the exact integer square root for `int(n**0.5)` (ababe/stru/grid.py:102, 140). Here `root n` is the double that
`n**0.5` returns, whatever it is. Simplification: `n` is below 2^1024, so that its conversion does not overflow. -/

namespace Verif

/-- the argument of `set(...)` in `factors` (ababe/stru/grid.py:100-102, 138-140) when `int(n**0.5)` is `r` -/
def factorsRawIn (r n : ℕ) : Py (List ℕ) :=
  match (List.range' 1 r).filter (fun i => n % i == 0) with
  | [] => .error .typeError
  | l => .ok (l.flatMap fun i => [i, n / i])

/-- `list(factors(n))` (ababe/stru/grid.py:99-102, 105, 107) -/
def factorsIn (root : ℕ → ℚ) (setList : List ℕ → List ℕ) (n : ℕ) : Py (List ℕ) := do
  return setList (← factorsRawIn ⌊root n⌋.toNat n)

/-- the matrices for one `a` (ababe/stru/grid.py:107-115) -/
def hnfMatsOfIn (root : ℕ → ℚ) (setList : List ℕ → List ℕ) (n a : ℕ) : Py (List (M3 ℤ)) := do
  let cs ← factorsIn root setList (n / a)
  return cs.flatMap fun c => (List.range c).flatMap fun b =>
    (List.range (n / a / c)).flatMap fun d => (List.range (n / a / c)).map fun e => hnfMat a b d c e (n / a / c)

/-- the matrices built by `hnfs_from_n_dups` (ababe/stru/grid.py:104-115) -/
def hnfMatsIn (root : ℕ → ℚ) (setList : List ℕ → List ℕ) (n : ℕ) : Py (List (M3 ℤ)) := do
  let as ← factorsIn root setList n
  let ms ← as.mapM (hnfMatsOfIn root setList n)
  return ms.flatten

/-- `SuperLatticeGenerator.hnfs_from_n(unit_gcell, n)` (ababe/stru/grid.py:97-130) -/
def hnfsFromNIn (root : ℕ → ℚ) (setList : List ℕ → List ℕ) (itemFirst : Bool) (unit : GCell) (rots : List (M3 ℤ)) (n : ℕ) :
    Py (List SLCell) := do nodupLoop itemFirst ((← hnfMatsIn root setList n).map (SLCell.new unit rots)) []

/-- the matrices built by the 2D `hnfs_from_n_dups` (ababe/stru/grid.py:142-150) -/
def hnfMats2DIn (root : ℕ → ℚ) (setList : List ℕ → List ℕ) (n : ℕ) : Py (List (M3 ℤ)) := do
  let as ← factorsIn root setList n
  return as.flatMap fun a => (List.range (n / a)).map fun b => hnfMat a b 0 (n / a) 0 1

/-- `SuperLatticeGenerator2D.hnfs_from_n(unit_gcell, n)` (ababe/stru/grid.py:135-165) -/
def hnfsFromN2DIn (root : ℕ → ℚ) (setList : List ℕ → List ℕ) (itemFirst : Bool) (unit : GCell) (rots : List (M3 ℤ)) (n : ℕ) :
    Py (List SLCell) := do nodupLoop itemFirst ((← hnfMats2DIn root setList n).map (SLCell.new unit rots)) []

end Verif
