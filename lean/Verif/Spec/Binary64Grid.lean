import Verif.Spec.Binary64
import Verif.Spec.Grid

/-! # Specification vocabulary for grids in double precision (independent of the model) -/

namespace Verif.Spec

/-- the sizes of a grid in one direction for which double precision is harmless when coordinates are rounded to `n` decimals first:
at most 990, not divisible by 80 and, for fewer than seven decimals, less than 100 times the greatest common divisor with 2000 -/
def GoodSize (n d : ℕ) : Prop := 0 < d ∧ d ≤ 990 ∧ ¬ 80 ∣ d ∧ (7 ≤ n ∨ d < 100 * Nat.gcd d 2000)

/-- how far a computed coordinate may be off when it is rounded to `n` decimals first -/
def gridTol (n : ℕ) : ℚ := min (1 / 10 ^ 8) (1 / (4 * 10 ^ n))

/-- the computed coordinate `y` stands for the exact coordinate `x`, a multiple of `1/d` -/
def OnGrid (n d : ℕ) (x y : ℚ) : Prop := (∃ k : ℤ, x = k / d) ∧ |x| ≤ 1000 ∧ |y - x| ≤ gridTol n

/-- the same for vectors -/
def OnGrid3 (n d w l : ℕ) (x y : V3 ℚ) : Prop := OnGrid n d x.1 y.1 ∧ OnGrid n w x.2.1 y.2.1 ∧ OnGrid n l x.2.2 y.2.2

/-- the reported operation `op'` is the operation `op`, with the translation off by at most `ε`: rotation entries are at most 10 and
translations at most 100 -/
def CloseOp (ε : ℚ) (op op' : Op) : Prop :=
  op'.1 = op.1 ∧ Within ε op.2 op'.2 ∧ AllM (fun x => |x| ≤ 10) (V3.map (V3.map fun z : ℤ => (z : ℚ)) op.1) ∧
    All3 (fun x => |x| ≤ 100) op.2

/-- the operation carries every site of the `d × w × l` grid onto a site of the grid, modulo lattice translations -/
def MapsGrid (d w l : ℕ) (op : Op) : Prop := ∀ c b a : ℕ, c < d → b < w → a < l →
  ∃ c' b' a' : ℕ, c' < d ∧ b' < w ∧ a' < l ∧ Cong (op.image (site d w l c b a)) (site d w l c' b' a')

end Verif.Spec
