import Verif.Conformance.Common
import Verif.Model.Grid

/-! # Conformance: ababe/stru/tests/test_grid.py and the supercell tests of test_scaffold.py -/

namespace Verif.Conformance

/-- the order in which CPython lists a small set of small integers -/
def setList (l : List ℕ) : List ℕ := l.dedup.insertionSort (· ≤ ·)

def latBccU : M3 ℚ := ((1/2, 1/2, -1/2), (-1/2, 1/2, 1/2), (1/2, -1/2, 1/2))
def bcc : Py GCell := GCell.new latBccU [(0, 0, 0)] [0]

def axis (i : ℕ) (s : ℚ) : V3 ℚ := if i = 0 then (s, 0, 0) else if i = 1 then (0, s, 0) else (0, 0, s)

/-- the 48 rotations of the cube, in the basis of the lattice `L` -/
def cubicRots (L : M3 ℚ) : List (M3 ℤ) :=
  [(0, 1, 2), (0, 2, 1), (1, 0, 2), (1, 2, 0), (2, 0, 1), (2, 1, 0)].flatMap fun p : V3 ℕ =>
    [1, -1].flatMap fun a => [1, -1].flatMap fun b => [1, -1].filterMap fun c =>
      match inv (transpose L) with
      | .ok i => some (V3.map (V3.map fun x : ℚ => x.num) (matMul i (matMul (axis p.1 a, axis p.2.1 b, axis p.2.2 c) (transpose L))))
      | .error _ => none

def dups (n : ℕ) : Py (List SLCell) := do hnfsFromNDups setList (← bcc) (cubicRots latBccU) n

-- test_HNFs_from_n_dups
#guard returns (dups 4) fun l => l.length == 35
#guard returns (dups 5) fun l => l.length == 31
#guard returns (dups 6) fun l => l.length == 91

-- test_eq
#guard returns (do match ← dups 2 with | a :: b :: _ => a.eq b | _ => .ok false) id

-- test_HNFs_from_n: the numbers for bcc, and for hcp
#guard returns ([2, 3, 4, 5, 6, 7].mapM fun n => do hnfsFromN setList true (← bcc) (cubicRots latBccU) n) fun l =>
  l.map List.length == [2, 3, 7, 5, 10, 7]
#guard returns ([2, 3, 4, 5, 6, 7].mapM fun n => do hnfsFromN setList false (← bcc) (cubicRots latBccU) n) fun l =>
  l.map List.length == [2, 3, 7, 5, 10, 7]

def power (m : M3 ℤ) : ℕ → M3 ℤ
  | 0 => identM
  | k + 1 => matMul m (power m k)

/-- the 24 rotations of the hexagonal prism for axes at 120 degrees -/
def hexRots : List (M3 ℤ) :=
  (List.range 6).flatMap fun i =>
    let r := power ((1, -1, 0), (1, 0, 0), (0, 0, 1)) i
    let m := matMul ((0, 1, 0), (1, 0, 0), (0, 0, 1)) r
    [r, m, matMul (diag 1 1 (-1)) r, matMul (diag 1 1 (-1)) m]

def hcp : Py GCell :=
  GCell.new ((251900005/100000000, 0, 0), (-125950003/100000000, 218151804/100000000, 0), (0, 0, 409100008/100000000))
    [(33333334/100000000, 66666669/100000000, 1/4), (66666663/100000000, 33333331/100000000, 3/4)] [0, 0]

#guard returns ([1, 2, 3, 4, 5, 6, 7, 8, 9].mapM fun n => do hnfsFromN setList false (← hcp) hexRots n) fun l =>
  l.map List.length == [1, 3, 5, 11, 7, 19, 11, 34, 23]

-- test_to_general_cell
#guard returns (do match (← dups 4)[2]? with | some h => h.toGeneralCell | none => .error .indexError) fun c => c.spgNumbers.length == 4

def latZb : M3 ℚ := ((382863/100000, 0, 0), (191431/100000, 331569/100000, 0), (191431/100000, 110523/100000, 312606/100000))
def zb : Py GCell := GCell.new latZb [(0, 0, 0), (1/4, 1/4, 1/4)] [30, 16]

/-- the rotations of the fcc lattice in a primitive basis -/
def fccRots : List (M3 ℤ) := cubicRots ((0, 1/2, 1/2), (1/2, 0, 1/2), (1/2, 1/2, 0))

#guard returns (do match (← hnfsFromN setList false (← zb) fccRots 3)[1]? with | some h => h.toGeneralCell | none => .error .indexError)
  fun c => c.spgNumbers.length == 6
#guard returns (do (SLCell.new (← bcc) (cubicRots latBccU) ((1, 0, 3), (0, 2, 2), (0, 0, 4))).toGeneralCell) fun c => c.spgNumbers.length == 8

/-! ### test_scaffold.py, testGeneralCell -/

-- test_get_cartesian
#guard returns (do (← cell12 (List.replicate 12 6)).getCartesian none) fun l => nearL l
  [(0, 0, 0), (0, 1, 0), (49998/100000, 1/2, 1/2), (49998/100000, 3/2, 1/2), (99999/100000, 0, 0), (99999/100000, 1, 0),
   (3/2, 1/2, 1/2), (3/2, 3/2, 1/2), (199998/100000, 0, 0), (199998/100000, 1, 0), (249999/100000, 1/2, 1/2), (249999/100000, 3/2, 1/2)]

-- test_supercell
#guard returns (do (← cell12 (List.replicate 12 6)).supercell (diag 1 1 2)) fun c =>
  c.numbers == List.replicate 24 6 && nearL c.positions
    [(0, 0, 0), (0, 0, 1/2), (0, 1/2, 0), (0, 1/2, 1/2),
     (16666/100000, 1/4, 1/4), (16666/100000, 1/4, 3/4), (16666/100000, 3/4, 1/4), (16666/100000, 3/4, 3/4),
     (33333/100000, 0, 0), (33333/100000, 0, 1/2), (33333/100000, 1/2, 0), (33333/100000, 1/2, 1/2),
     (1/2, 1/4, 1/4), (1/2, 1/4, 3/4), (1/2, 3/4, 1/4), (1/2, 3/4, 3/4),
     (66666/100000, 0, 0), (66666/100000, 0, 1/2), (66666/100000, 1/2, 0), (66666/100000, 1/2, 1/2),
     (83333/100000, 1/4, 1/4), (83333/100000, 1/4, 3/4), (83333/100000, 3/4, 1/4), (83333/100000, 3/4, 3/4)]

-- test_get_speckle_num
#guard returns (cell12 (List.replicate 12 6)) fun c => c.getSpeckleNum B == 0 && c.getSpeckleNum C == 12

end Verif.Conformance
