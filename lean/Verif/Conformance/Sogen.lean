import Verif.Conformance.Common
import Verif.Model.Sogen
import Verif.Model.SogenGrid
import Verif.Model.Bucky

/-! # Conformance: ababe/stru/tests/test_sogen.py and test_buckyball.py -/

namespace Verif.Conformance

def gen12 : Py OGen := do OGen.new (← cell12 (List.replicate 12 6)) ops12 (List.replicate 12 "a")

-- test_scaffold.py, testGeneralCell.test_get_symmetry_permutation
#guard returns gen12 fun g => g.perms.length == 96

-- test_is_equivalent, first part
#guard returns (do (← gen12).isEquivalent (← cell12 ([6, 6, 6, 6, 6, 6, 6, 6, 6, 6, 6, 6].set 0 5)) (← cell12 ((List.replicate 12 6).set 1 5))) id

-- test_gen_dup_unitary
#guard returns (do (← gen12).genDupUnitary 3 B) fun l => l.length == 220

-- test_gen_nodup_unitary
#guard returns (do (← gen12).genNodupUnitary code 3 B) fun l => l.length == 9
#guard returns (do (← gen12).genNodupUnitary code 4 B) fun l => l.length == 21
#guard returns (do (← gen12).genNodupUnitary code 1 B) fun l => l.length == 1

/-- a short code for the three species of the next test -/
def code3 (l : List ℤ) : ℕ := l.foldl (fun a z => a * 4 + (if z = 6 then 0 else if z = 22 then 1 else 2)) 0

-- test_gen_nodup_trinary_alloy
#guard returns (do (← gen12).genNodupTrinary code3 Ti 2 Cu 3) fun l => l.length == 191

-- test_gen_add_one_speckle_unitary, test_gen_2nodup_gen
#guard returns (do let g ← gen12; g.addOneUnitary code [g.init] B) fun l => l.length == 12
#guard returns (do let g ← gen12; g.gen2Nodup code (← g.addOneUnitary code [g.init] B)) fun l => l.length == 1

-- test_all_speckle_gen_unitary
#guard returns (do (← gen12).allSpeckleUnitary code 4 B) fun l => l.map List.length == [1, 5, 9, 21]

/-! ### the ZnS cell of test_files/zns_f43m2x.yaml: F-43m, two conventional cells along z -/

def posZns : List (V3 ℚ) :=
  [(749999940, 749999940, 374999970), (749999940, 749999940, 875000000), (749999940, 249999985, 124999993),
   (749999940, 249999985, 625000000), (249999985, 749999940, 124999993), (249999985, 749999940, 625000000),
   (249999985, 249999985, 374999970), (249999985, 249999985, 875000000), (0, 0, 0), (0, 0, 500000000),
   (499999970, 499999970, 0), (499999970, 499999970, 500000000), (499999970, 0, 249999985), (499999970, 0, 750000000),
   (0, 499999970, 249999985), (0, 499999970, 750000000)].map fun p : V3 ℤ => V3.map (fun z : ℤ => (z : ℚ) / 1000000000) p

def latZns : M3 ℚ := ((54145002365/10000000000, 0, 0), (0, 54145002365/10000000000, 0), (0, 0, 108290004730/10000000000))

/-- the operations of F-43m about a sulphur atom that keep the doubled axis, and the eight translations -/
def opsZns : List (M3 ℤ × V3 ℚ) :=
  [(1, 1, 1), (1, -1, -1), (-1, 1, -1), (-1, -1, 1)].flatMap fun s : V3 ℤ =>
    [diag s.1 s.2.1 s.2.2, ((0, s.1, 0), (s.2.1, 0, 0), (0, 0, s.2.2))].flatMap fun r =>
      [(0, 0, 0), (0, 0, 1/2), (1/2, 1/2, 0), (1/2, 1/2, 1/2), (1/2, 0, 1/4), (1/2, 0, 3/4), (0, 1/2, 1/4), (0, 1/2, 3/4)].map
        fun t => (r, t)

def cellZns (numbers : List ℤ) : Py GCell := GCell.new latZns posZns (List.replicate 8 30 ++ numbers)

/-- the sulphur atoms have the Wyckoff letter c (test_gen_dup asks for it) -/
def genZns : Py OGen := do
  let c ← cellZns (List.replicate 8 16)
  OGen.new c opsZns (c.numbers.map fun z => if z = 16 then "c" else "a")

-- test_is_equivalent, last part
#guard returns (do (← genZns).isEquivalent (← cellZns [50, 50, 16, 16, 16, 16, 16, 16]) (← cellZns [16, 16, 50, 50, 16, 16, 16, 16])) id

-- test_gen_dup
#guard returns (do (← genZns).genDup "c" 3 Ti) fun l => l.length == 56
#guard returns (do (← genZns).genDupOfEle S 3 Ti) fun l => l.length == 56

-- test_gen_nodup
#guard returns (do (← genZns).genNodup code "c" 3 Ti) fun l => l.length == 4
#guard returns (do (← genZns).genNodupOfEle code S 3 Ti) fun l => l.length == 4

-- test_gen_add_one_speckle, both versions
#guard returns (do let g ← genZns; g.addOne code [g.init] "c" Ti) fun l => l.length == 8
#guard returns (do let g ← genZns; g.addOneOfEle code [g.init] S Ti) fun l => l.length == 8

-- test_all_speckle_gen, test_all_speckle_gen_of_ele
#guard returns (do (← genZns).allSpeckle code 4 "c" Ti) fun l => l.map List.length == [1, 4, 4, 8]
#guard returns (do (← genZns).allSpeckleOfEle code 4 S Ti) fun l => l.map List.length == [1, 4, 4, 8]

/-! ### the half-Heusler cell of test_is_equivalent -/

def posHh : List (V3 ℚ) :=
  [(1/4, 1/4, 1/4), (1/4, 3/4, 3/4), (3/4, 1/4, 3/4), (3/4, 3/4, 1/4), (0, 0, 0), (1/2, 1/2, 0), (1/2, 0, 1/2), (0, 1/2, 1/2),
   (3/4, 3/4, 3/4), (3/4, 1/4, 1/4), (1/4, 3/4, 1/4), (1/4, 1/4, 3/4)]

/-- F-43m about the tin atom: permutations of the axes with an even number of sign changes, and the face centrings -/
def opsHh : List (M3 ℤ × V3 ℚ) :=
  [(1, 1, 1), (1, -1, -1), (-1, 1, -1), (-1, -1, 1)].flatMap fun s : V3 ℤ =>
    [((s.1, 0, 0), (0, s.2.1, 0), (0, 0, s.2.2)), ((s.1, 0, 0), (0, 0, s.2.1), (0, s.2.2, 0)), ((0, s.1, 0), (s.2.1, 0, 0), (0, 0, s.2.2)),
     ((0, s.1, 0), (0, 0, s.2.1), (s.2.2, 0, 0)), ((0, 0, s.1), (s.2.1, 0, 0), (0, s.2.2, 0)), ((0, 0, s.1), (0, s.2.1, 0), (s.2.2, 0, 0))].flatMap
      fun r => [(0, 0, 0), (1/2, 1/2, 0), (1/2, 0, 1/2), (0, 1/2, 1/2)].map fun t => (r, t)

def cellHh (tin : List ℤ) : Py GCell :=
  GCell.new ((3/2, 0, 0), (0, 3/2, 0), (0, 0, 3/2)) posHh ([28, 28, 28, 28] ++ tin ++ [22, 22, 22, 22])

def genHh : Py OGen := do OGen.new (← cellHh [50, 50, 50, 50]) opsHh []

#guard returns (do (← genHh).isEquivalent (← cellHh [51, 51, 50, 50]) (← cellHh [51, 50, 50, 51])) id
#guard returns (do (← genHh).isEquivalent (← cellHh [51, 51, 50, 50]) (← cellHh [51, 50, 50, 50])) not

/-! ### testAlgorithomSog: the functions on grids -/

def idSeq (pos : List (V3 ℚ)) (nums : List ℤ) : Py (List Char) := getIdSeq atomSeqId pos nums

-- test_get_id_seq
def third : ℚ := 33333333/100000000
def twoThirds : ℚ := 66666667/100000000
def pos0 : List (V3 ℚ) := [(0, 0, 0), (0, 0, third), (0, 0, 6666666/10000000), (0, 1/2, 0), (0, 1/2, third), (0, 1/2, twoThirds)]
def pos1 : List (V3 ℚ) := [(0, 0, 0), (0, 0, third), (0, 0, 6666666/10000000 - 4), (0, 1/2, 0), (0, 1/2, third), (0, 1/2, twoThirds)]
def pos01 : List (V3 ℚ) := [(0, 0, 0), (0, 0, 2/3), (0, 0, third - 3), (0, 12500003/1000000, 0), (0, 1/2, third), (0, 1/2, twoThirds)]
def pos02 : List (V3 ℚ) := [(0, 0, 0), (0, 0, third), (0, 1/2, 0), (0, 1/2, third), (0, 0, twoThirds), (0, 1/2, twoThirds)]

#guard returns (do return (← idSeq pos0 [22, 22, 29, 22, 22, 22]) == (← idSeq pos1 [22, 22, 29, 22, 22, 22])) id
#guard returns (do return (← idSeq pos0 [22, 22, 29, 22, 22, 22]) == (← idSeq pos01 [22, 29, 22, 22, 22, 22])) id
#guard returns (do return (← idSeq pos0 [22, 22, 29, 22, 22, 22]) == (← idSeq pos02 [22, 22, 22, 22, 29, 22])) id

def unitRows : List (V3 ℤ) := [-1, 0, 1].flatMap fun a => [-1, 0, 1].flatMap fun b => [-1, 0, 1].map fun c => (a, b, c)

/-- the matrices with entries in -1, 0, 1 that keep the metric of the lattice up to 1/1000 -/
def metricRots (L : M3 ℚ) : List (M3 ℤ) :=
  let g := matMul L (transpose L)
  unitRows.flatMap fun a => unitRows.flatMap fun b => unitRows.filterMap fun c =>
    let W : M3 ℤ := (a, b, c)
    let d := matMul (transpose (castM W)) (matMul g (castM W))
    let diff := fun (x y : V3 ℚ) => decide (|x.1 - y.1| < 1/1000) && decide (|x.2.1 - y.2.1| < 1/1000) && decide (|x.2.2 - y.2.2| < 1/1000)
    if diff d.1 g.1 && diff d.2.1 g.2.1 && diff d.2.2 g.2.2 then some W else none

/-- the group of a grid filled with one element whose cells are translates of each other: every such matrix with every translation -/
def opsGrid (d w l : ℕ) (c : SpgCell) : List (M3 ℤ × V3 ℚ) :=
  (metricRots c.lattice).flatMap fun W => (yieldPosition d w l).map fun p => (W, (p.1 / d, p.2.1 / w, p.2.2 / l))

def latBcc : M3 ℚ := ((-1/2, -1/2, -1/2), (-1/2, 1/2, 1/2), (1/2, -1/2, 1/2))
def latTri : M3 ℚ := ((0, 0, 20), (1, 0, 0), (1/2, 8660254/10000000, 0))

-- test_update_isoset
def ti222 : Py (List ℤ) := do
  let s ← CStru.new latBcc [[[Cu, Cu], [Cu, Cu]], [[Cu, Cu], [Ti, Cu]]]
  return (← s.getCell).numbers
def perms222 : Py (List (List ℕ)) := do
  let s ← CStru.new latBcc (seaCube 2 2 2 Cu)
  let c ← s.getCell
  getPermutationCell c (opsGrid 2 2 2 c)

#guard returns (do updateIsosetStr [] (← ti222) (← perms222)) fun iso => iso != [] && iso.dedup.length ≤ 48 * 8
#guard returns (do
  let a ← updateIsosetStr [] (← ti222) (← perms222)
  let b ← updateIsosetStr a (← ti222) (← perms222)
  return a.all (b.contains ·) && b.all (a.contains ·)) id

-- test_gen_nodup_cstru
#guard returns (genNodupCstru (opsGrid 2 2 2) latBcc Cu (2, 2, 2) Ti 1) fun l => l.length == 1
#guard returns (genNodupCstru (opsGrid 1 3 3) latTri Cu (1, 3, 3) Ti 2) fun l => l.length == 2
#guard returns (genNodupCstru (opsGrid 1 3 3) latTri Cu (1, 3, 3) Ti 3) fun l => l.length == 4
#guard returns (genNodupCstru (opsGrid 1 5 5) latTri Cu (1, 5, 5) Ti 2) fun l => l.length == 4

-- test_is_speckle_disjunct
def disjunct (grid : Cube Specie) : Py Bool := do isSpeckleDisjunct (← CStru.new latTri grid) G
#guard returns (disjunct [[[G, G, B, B], [B, B, B, B], [B, B, B, B], [B, B, B, B]]]) not
#guard returns (disjunct [[[G, B, B, G], [B, B, B, B], [B, B, B, B], [B, B, B, B]]]) not
#guard returns (disjunct [[[G, B, B, B], [B, G, B, B], [B, B, B, B], [B, B, B, B]]]) id

/-! ### test_buckyball.py -/

-- test_all_speckle_gen
#guard returns (do (← Bucky.new (List.replicate 60 6)).allSpeckleGen code 3 B) fun l => l.map List.length == [1, 1, 23, 303]

end Verif.Conformance
