import Verif.Conformance.Common
import Verif.Model.Scaffold
import Verif.Model.ScaffoldMore
import Verif.Model.ModifiedMore
import Verif.Model.Modified
import Verif.Model.Restriction
import Verif.Model.Grid
import Verif.Model.Arrange

/-! # Conformance: test_element.py, test_site.py, test_scaffold.py, test_clarifier.py, test_restriction.py and the tests of ababe/mlearn -/

namespace Verif.Conformance

/-! ### test_element.py -/

#guard returns (Specie.ofSymbol "B") fun s => s.symbol == "B" && s.Z == 5
#guard returns (Specie.fromNum 5) fun s => s.pyEq B
#guard returns (Specie.fromNum 0) fun s => s.pyEq G
#guard returns (Specie.toName 5) (· == "B")
#guard returns (Specie.toName 0) (· == "G")
#guard G.symbol == "G" && G.Z == 0

/-! ### test_site.py -/

#guard returns (do return (← Site.new (1, 2, 0) (.symbol "S")).pyEq (← Site.new (1, 2, 0) (.specie S))) id
#guard returns (do return (← Site.new (1, 2, 0) (.symbol "S")).pyEq (← Site.new (1, 2, 0) (.num 16))) id

/-! ### test_scaffold.py, testSitesGrid -/

def cubeSg : Cube Specie := [[[B, B], [G, G]], [[B, G], [G, B]]]

-- test_properties
#guard returns (SGrid.sea [] 4 2 2 G) fun r => r.2.depth == 4 && r.2.length == 2 && r.2.width == 2
#guard returns (SGrid.ofCube [] cubeSg) fun r => r.2.contents r.1 == cubeSg

-- test_get
#guard returns (do let r ← SGrid.ofCube [] cubeSg; r.2.getItem r.1 (0, 1, 1)) fun s => s.pyEq G
#guard returns (do let r ← SGrid.ofCube [] cubeSg; let h ← r.2.setItem r.1 (0, 1, 1) B; r.2.getItem h (0, 1, 1)) fun s => s.pyEq B

-- test_equal
#guard returns (do
  let a ← SGrid.sea [] 4 2 2 G
  let b ← SGrid.sea a.1 4 2 2 Ti
  return !(b.2.pyEq b.1 (some a.2)) && !(a.2.pyEq b.1 none)) id

-- test_deepCopy
#guard returns (do let a ← SGrid.sea [] 4 2 2 G; return (← a.2.deepCopy a.1).pyEq a.1 (some a.2)) id

-- test_to_array, test_from_array
#guard returns (do let a ← SGrid.sea [] 2 2 2 G; a.2.toArray a.1) (· == [[[0, 0], [0, 0]], [[0, 0], [0, 0]]])
#guard returns (do let a ← SGrid.ofCube [] cubeSg; a.2.toArray a.1) (· == [[[5, 5], [0, 0]], [[5, 0], [0, 5]]])
#guard returns (do
  let a ← SGrid.ofCube [] cubeSg
  let b ← SGrid.fromArray a.1 [[[5, 5], [0, 0]], [[5, 0], [0, 5]]]
  return b.2.pyEq b.1 (some a.2)) id

-- test_gen_speckle: the grid is among the 70, and every one has the sum 204
def cubeCt : Cube Specie := [[[Cu, Cu], [Ti, Ti]], [[Cu, Ti], [Ti, Cu]]]
#guard returns (sgGenSpeckle Cu (2, 2, 2) Ti 4) fun l =>
  l.length == 70 && l.any (cubeEq cubeCt) && l.all fun c => (c.flatten.flatten.map (·.Z)).sum == 204

/-! ### test_scaffold.py, testCStru -/

def one3 : M3 ℚ := ((1, 0, 0), (0, 1, 0), (0, 0, 1))
def cubeS : Cube Specie := [[[G, B], [G, G]], [[B, B], [B, G]]]

-- test_equal
#guard returns (do
  let s ← CStru.new one3 cubeS
  let dm ← CStru.new ((1, 1, 1), (0, 0, 1), (1, 0, 0)) cubeS
  let ds ← CStru.new one3 cubeSg
  return s.pyEq s && !(dm.pyEq s) && !(ds.pyEq s)) id

-- test_from_array, test_get_array
#guard returns (do return (← CStru.fromArray one3 [[[0, 5], [0, 0]], [[5, 5], [5, 0]]]).pyEq (← CStru.new one3 cubeS)) id
#guard returns (do (← CStru.new one3 cubeS).getArray) (· == [[[0, 5], [0, 0]], [[5, 5], [5, 0]]])

-- test_gen_speckle
#guard returns (do return ((← CStru.genSpeckle one3 Cu (2, 2, 2) Ti 4), (← CStru.new one3 cubeCt))) fun r => r.1.any (CStru.pyEq r.2)

-- test_get_cell
def latB : M3 ℚ := ((-1/2, -1/2, -1/2), (-1/2, 1/2, 1/2), (1/2, -1/2, 1/2))
#guard returns (do (← CStru.new latB [[[Cu]]]).getCell) fun c => c == ⟨latB, [(0, 0, 0)], [29]⟩
#guard returns (do (← CStru.new latB [[[Ti, Cu, Ti], [Ti, Ti, Cu]]]).getCell) fun c =>
  c == ⟨((-1/2, -1/2, -1/2), (-1, 1, 1), (3/2, -3/2, 3/2)),
    [(0, 0, 0), (0, 0, 1/3), (0, 0, 2/3), (0, 1/2, 0), (0, 1/2, 1/3), (0, 1/2, 2/3)], [22, 29, 22, 22, 22, 29]⟩

/-! ### test_scaffold.py, testModifiedCell -/

def latM : M3 ℚ := ((12, 2, 14), (16, 0, 16), (2, 2, 0))
def posM : List (V3 ℚ) :=
  [(0, 0, 0), (0, 1/8, 0), (0, 1/4, 0), (0, 3/8, 0), (0, 1/2, 0), (0, 5/8, 0), (0, 3/4, 0), (0, 7/8, 0),
   (1/4, 3/32, 1/4), (1/4, 7/32, 1/4), (1/4, 11/32, 1/4), (1/4, 15/32, 1/4), (1/4, 19/32, 1/4), (1/4, 23/32, 1/4),
   (1/4, -5/32, 1/4), (1/4, -1/32, 1/4)]
def numM : List ℤ := List.replicate 8 30 ++ List.replicate 8 16

/-- the world with the cells `full_initzb` (0) and `initstru` (1) of `setUp`; the defaults are one ghost atom at the origin -/
def worldM : Py World := do
  let (w, _) ← World.empty.newCell latM posM numM
  let (w, _) ← w.newCell latM [(0, 0, 0)] [0]
  return w

/-- the results of a history on a copy of the full cell (which becomes cell 2) -/
def gcellAfter (c : ℕ) (ops : List MOp) : Py GCell := do
  let w ← worldM
  (w.run (.copy c :: ops)).1.toGcell 2

-- test_from_to_gcell
#guard returns (do
  let g ← GCell.new latM posM numM
  let (w, c) ← World.empty.fromGcell g
  return decide ((← w.toGcell c).positions = g.positions)) id

-- test_get_cartesian_from_frac
#guard posM.map (fun p => vecMul p latM) ==
  [(0, 0, 0), (2, 0, 2), (4, 0, 4), (6, 0, 6), (8, 0, 8), (10, 0, 10), (12, 0, 12), (14, 0, 14),
   (5, 1, 5), (7, 1, 7), (9, 1, 9), (11, 1, 11), (13, 1, 13), (15, 1, 15), (1, 1, 1), (3, 1, 3)]

-- test_get_frac_from_cart
#guard returns (inv latM) fun m => posM.map (fun p => vecMul (vecMul p latM) m) == posM

-- test_translate_sites
#guard returns (gcellAfter 0 [.translate 2 0 (1/5, 0, 0)]) fun g => g.positions != posM

-- test_append: the new site comes second after sorting
#guard returns (do
  let w ← worldM
  let (w, c) := w.copy 0
  let (w, s) := w.allocSite ⟨(0, 0, 222/1000), S⟩
  ((w.step (.append c s)).1).toGcell c) fun g => g.positions == posM.insertIdx 1 (0, 0, 222/1000) && g.numbers == numM.insertIdx 1 16

-- test_remove_site
#guard returns (gcellAfter 0 [.pop 2 (-1)]) fun g => g.positions == posM.eraseIdx 15
#guard returns (gcellAfter 0 [.pop 2 2]) fun g => g.positions == posM.eraseIdx 2

-- test_append_site, test_append_sites
def appended (zs : List ℚ) : Py GCell := do
  let w ← worldM
  let (w, c) := w.copy 1
  let (w, l) := w.allocSites (zs.map fun z => ⟨(0, 0, z), S⟩)
  ((w.step (.extend c l)).1).toGcell c
#guard returns (appended [222/1000]) fun g => g.positions == [(0, 0, 0), (0, 0, 222/1000)]
#guard returns (appended [1/10, 2/10, 3/10]) fun g => g.positions == [(0, 0, 0), (0, 0, 1/10), (0, 0, 2/10), (0, 0, 3/10)]

-- test_remove_sites
#guard returns (gcellAfter 0 [.removeSites 2 [2, 14, 3, 5]]) fun g => g.positions == (((posM.eraseIdx 14).eraseIdx 5).eraseIdx 3).eraseIdx 2

-- test_copy
#guard returns (do let w ← worldM; let (w, c) := w.copy 0; return (← w.cellEq c 0) && c != 0) id

-- test_perturb, second part: with distance 0 nothing moves
#guard returns (do
  let w ← worldM
  let (w, c) := w.copy 0
  match w.perturb c (fun v => |v.1| + |v.2.1| + |v.2.2|) 0 (List.replicate 16 (1, 2, 3)) with
  | some r => (← r).toGcell c
  | none => .error .valueError) fun g => g.positions == posM

/-! ### test_scaffold.py test_get_points_in_sphere, test_clarifier.py -/

def latC : M3 ℚ := ((4898979/1000000, 0, 0), (2449490/1000000, 4242641/1000000, 0), (1632993/1000000, 0, 4618802/1000000))
def posC : List (V3 ℚ) :=
  [(208333, 333333, 375000), (375000, 0, 875000), (541667, 666667, 375000), (708333, 333333, 875000), (875000, 0, 375000), (0, 0, 0),
   (166667, 666667, 500000), (333333, 333333, 0), (500000, 0, 500000), (666667, 666667, 0), (833333, 333333, 500000),
   (41667, 666667, 875000)].map fun p : V3 ℤ => V3.map (fun z : ℤ => (z : ℚ) / 1000000) p
def numC : List ℤ := [16, 16, 16, 16, 16, 30, 30, 30, 30, 30, 30, 55]
def centre : V3 ℚ := (41667/1000000, 666667/1000000, 875000/1000000)

-- test_get_points_in_sphere
#guard returns (do let (w, c) ← World.empty.newCell latC posC numC; return (w.insphere c centre 2 none).map (·.1)) (· == [5, 6, 7, 9, 11])
#guard returns (do let (w, c) ← World.empty.newCell latC posC numC; return (w.insphere c centre 2 (some Zn)).map (·.1)) (· == [5, 6, 7, 9])

/-- `newcell == expect_newcell`, where the sites with the given indices are expected to stay -/
def staysEq (w : World) (c : ℕ) (nums : List ℤ) (idx : List ℕ) : Py Bool := do
  let ps ← fancy posC idx
  let (w, e) ← w.newCell latC ps nums
  return (← w.cellEq c e) && (w.sitesOf c).length == idx.length

-- TestAtomRemoveClarifier.test_clarify
#guard returns (do
  let (w, c) ← World.empty.newCell latC posC numC
  staysEq (atomRemoveClarify [centre] 2 (some Zn) w c) c [16, 16, 16, 16, 16, 30, 30, 55] [0, 1, 2, 3, 4, 8, 10, 11]) id

-- TestVerboseAtomRemoveClarifier.test_clarify
#guard returns (do
  let (w, c) ← World.empty.newCell latC posC (numC.set 4 55)
  match verboseClarify 100 Cs 2 (some Zn) w c with
  | some w => staysEq w c [16, 16, 16, 16, 55, 55] [0, 1, 2, 3, 4, 11]
  | none => .ok false) id

/-! ### test_restriction.py -/

#guard returns (do minDistSatisfied C (85/100) (← cell12 [5, 6, 6, 6, 5, 6, 6, 6, 6, 6, 6, 6])) id
#guard returns (do minDistSatisfied B (101/100) (← cell12 [5, 6, 6, 6, 5, 6, 6, 6, 6, 6, 6, 6])) not
-- the names of the groups are those spglib gives for the two cells
#guard returns (spaceGroupSatisfied [6] "Pm (6)".toList) id
#guard returns (spaceGroupSatisfied [6, 47] "Pmmm (47)".toList) id

/-! ### ababe/mlearn/tests -/

def rps (l : List ℕ) : RPS ℕ := l.foldl RPS.add RPS.empty
def sameSet (a b : RPS ℕ) : Bool := a.list.length == b.list.length && a.list.all (b.list.contains ·)

#guard sameSet (rps [5, 5]) (rps [5]) && sameSet (rps [5, 5, 34]) (rps [5, 34])
#guard (rps [2, 4, 5, 5, 1]).list.length == 4 && (rps []).list.length == 0
#guard returns ((rps [2, 4, 5, 5, 1]).discard 2) fun s => sameSet s (rps [5, 5, 5, 1, 4])
-- test_random_pop: with seed 0 the last of the four items comes out
#guard returns ((rps [2, 4, 5, 5, 1]).randomPop 3) fun r => r.2 == some 1 && sameSet r.1 (rps [2, 4, 5])

-- TestBoronArrange, TestFCCArrange (always taking the first candidate)
#guard match boronWalk id 50 (List.replicate 3000 0) with
  | some r => returns r fun path => path.dedup.length == 50
  | none => false
#guard match fccWalk id 20 (List.replicate 3000 0) with
  | some r => returns r fun path => path.dedup.length == 20
  | none => false

end Verif.Conformance
