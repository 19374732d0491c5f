import Verif.Model.PtData
import Verif.Py.Basic
import Mathlib.Data.Real.Basic

/-! # Specification vocabulary for files: element lists and sorted sites -/

namespace Verif.Spec

/-- the numbers with an element in the shipped table (C01) -/
def Known (n : ℤ) : Prop := (0 ≤ n ∧ n ≤ 56) ∨ (72 ≤ n ∧ n ≤ 88)

/-- the symbol of atomic number `z` in the shipped table (`""` if there is none) -/
def symbol (z : ℤ) : String := ((ptDb.find? fun kv => kv.2 = z).map (·.1)).getD ""

/-- `zs` is the strictly increasing list of the non-zero numbers occurring in `numbers` -/
def Elements (numbers zs : List ℤ) : Prop := zs.Pairwise (· < ·) ∧ ∀ z, z ∈ zs ↔ z ∈ numbers ∧ z ≠ 0

/-- `ss` is `sites` without the ghosts (number 0), in order of increasing number, sites of equal number staying in their old
order -/
structure SortedReal {α} (sites ss : List (α × ℤ)) : Prop where
  sorted : ss.Pairwise fun a b => a.2 ≤ b.2
  real : ∀ s ∈ ss, s.2 ≠ 0
  stable : ∀ z, z ≠ 0 → ss.filter (fun s => s.2 = z) = sites.filter (fun s => s.2 = z)

/-- rounding to six, then to four decimals -/
def round64 (x : ℚ) : ℚ := around 4 (around 6 x)

/-- volume of the cell spanned by the rows of a real matrix (absolute value of the triple product) -/
noncomputable def cellVolume (m : M3 ℝ) : ℝ :=
  |m.1.1 * (m.2.1.2.1 * m.2.2.2.2 - m.2.1.2.2 * m.2.2.2.1)
    - m.1.2.1 * (m.2.1.1 * m.2.2.2.2 - m.2.1.2.2 * m.2.2.1)
    + m.1.2.2 * (m.2.1.1 * m.2.2.2.1 - m.2.1.2.1 * m.2.2.1)|

/-- every entry of `m'` is `s` times that of `m` -/
def Multiple {α} [Mul α] (s : α) (m m' : M3 α) : Prop :=
  m' = ((s * m.1.1, s * m.1.2.1, s * m.1.2.2), (s * m.2.1.1, s * m.2.1.2.1, s * m.2.1.2.2),
    (s * m.2.2.1, s * m.2.2.2.1, s * m.2.2.2.2))

/-- `s` is the file name in the path `p` (what follows the last slash) up to its first dot -/
def FileStem (p s : List Char) : Prop :=
  ∃ dir rest, p = dir ++ s ++ rest ∧ (dir = [] ∨ ∃ d, dir = d ++ ['/']) ∧ '/' ∉ s ∧ '/' ∉ rest ∧ '.' ∉ s ∧ (rest = [] ∨ ∃ r, rest = '.' :: r)

end Verif.Spec
