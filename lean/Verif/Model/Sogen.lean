import Verif.Model.GeneralCell

/-! # Model of `OccupyGenerator` (ababe/stru/sogen.py:22-242)

Generators are modelled by the list of what they yield (eager evaluation, `Py` for an exception anywhere);
`Verif/Model/Lazy.lean` models the lazy coroutines. `hash` stands for `xxhash.xxh64(·).intdigest()` of the numbers
array (`numbers2id`, ababe/stru/sogen.py:22-24, and `GeneralCell.id`). Dictionaries used as sets (`isoset`, `id_db`)
are lists of the inserted keys. -/

namespace Verif

/-- An `OccupyGenerator` object (ababe/stru/sogen.py:33-40). `lattice`, `positions`, `numbers` are those of `init_cell`. -/
structure OGen where
  init : GCell
  perms : List (List ℕ)
  wyckoffs : List String

/-- `OccupyGenerator(general_cell)` (ababe/stru/sogen.py:33-40). `ops` and `wy` are what spglib returns for the cell. -/
def OGen.new (c : GCell) (ops : List (M3 ℤ × V3 ℚ)) (wy : List String) : Py OGen := do
  let perms ← c.symmetryPermutation ops
  return { init := c, perms := perms, wyckoffs := wy }

/-- the loop of `is_equivalent` (ababe/stru/sogen.py:45-50) -/
def isEquivLoop (a b : List ℤ) : List (List ℕ) → Py Bool
  | [] => .ok false
  | p :: ps => do
    let nn ← fancy a p
    if nn = b then return true else isEquivLoop a b ps

/-- `is_equivalent(cell_i, cell_other)` (ababe/stru/sogen.py:42-50) -/
def OGen.isEquivalent (g : OGen) (a b : GCell) : Py Bool := isEquivLoop a.numbers b.numbers g.perms

/-- `for index in comb_index: numbers[index] = z` on a copy (ababe/stru/sogen.py:58-60, 84-86, 102-104).
The indices come from `range`/`enumerate` of the same array, so the assignment cannot fail. -/
def overwrite (numbers : List ℤ) (idx : List ℕ) (z : ℤ) : List ℤ := idx.foldl (fun ns i => ns.set i z) numbers

/-- `gen_dup_unitary(n, sp)` (ababe/stru/sogen.py:52-61) -/
def OGen.genDupUnitary (g : OGen) (n : ℕ) (sp : Specie) : Py (List GCell) :=
  (combinations (List.range g.init.numbers.length) n).mapM fun comb =>
    GCell.new g.init.lattice g.init.positions (overwrite g.init.numbers comb sp.Z)

/-- `[i for i, w in enumerate(wyckoffs) if w is wy]` (ababe/stru/sogen.py:81). `is` on one-character strings is equality
(CPython keeps one object per latin-1 character); spglib's Wyckoff letters are one-character strings. -/
def wyckoffIndices (wyckoffs : List String) (wy : String) : List ℕ :=
  (wyckoffs.zipIdx.filter (fun p => p.1 == wy)).map (·.2)

/-- `gen_dup(wy, n, sp)` (ababe/stru/sogen.py:77-87) -/
def OGen.genDup (g : OGen) (wy : String) (n : ℕ) (sp : Specie) : Py (List GCell) :=
  (combinations (wyckoffIndices g.wyckoffs wy) n).mapM fun comb =>
    GCell.new g.init.lattice g.init.positions (overwrite g.init.numbers comb sp.Z)

/-- `[i for i, e in enumerate(init_numbers) if e == ele_num]` (ababe/stru/sogen.py:99) -/
def eleIndices (numbers : List ℤ) (z : ℤ) : List ℕ :=
  (numbers.zipIdx.filter (fun p => p.1 == z)).map (·.2)

/-- `gen_dup_of_ele(ele, n, sp)` (ababe/stru/sogen.py:93-105) -/
def OGen.genDupOfEle (g : OGen) (ele : Specie) (n : ℕ) (sp : Specie) : Py (List GCell) :=
  (combinations (eleIndices g.init.numbers ele.Z) n).mapM fun comb =>
    GCell.new g.init.lattice g.init.positions (overwrite g.init.numbers comb sp.Z)

/-- the `zip_longest` loop of `_gen_dup_trinary_alloy` (ababe/stru/sogen.py:121-125) -/
def zipLongestWrite (numbers : List ℤ) (z1 z2 : ℤ) : List ℕ → List ℕ → List ℤ
  | [], r2 => r2.foldl (fun numbers i2 => numbers.set i2 z2) numbers
  | i1 :: r1, [] => zipLongestWrite (numbers.set i1 z1) z1 z2 r1 []
  | i1 :: r1, i2 :: r2 => zipLongestWrite ((numbers.set i1 z1).set i2 z2) z1 z2 r1 r2

/-- `_gen_dup_trinary_alloy(sp1, n1, sp2, n2)` (ababe/stru/sogen.py:111-127) -/
def OGen.genDupTrinary (g : OGen) (sp1 : Specie) (n1 : ℕ) (sp2 : Specie) (n2 : ℕ) : Py (List GCell) :=
  let origin := List.range g.init.numbers.length
  ((combinations origin n1).flatMap fun c1 =>
    (combinations (origin.filter (fun x => !c1.contains x)) n2).map fun c2 => (c1, c2)).mapM fun cc =>
      GCell.new g.init.lattice g.init.positions (zipLongestWrite g.init.numbers sp1.Z sp2.Z cc.1 cc.2)

/-- `_update_isoset(isoset, numbers, sym_perm)` (ababe/stru/sogen.py:198-203) -/
def updateIsoset (hash : List ℤ → ℕ) (isoset : List ℕ) (numbers : List ℤ) : List (List ℕ) → Py (List ℕ)
  | [] => .ok isoset
  | p :: ps => do
    let nn ← fancy numbers p
    updateIsoset hash (hash nn :: isoset) numbers ps

/-- the loop of `gen_2nodup_gen` (ababe/stru/sogen.py:184-196); the update happens when the consumer asks for the next
item, before the next input item is looked at -/
def gen2NodupLoop (hash : List ℤ → ℕ) (perms : List (List ℕ)) (isoset : List ℕ) : List GCell → Py (List GCell)
  | [] => .ok []
  | c :: cs =>
    if c.id hash ∈ isoset then gen2NodupLoop hash perms isoset cs
    else do
      let isoset' ← updateIsoset hash isoset c.numbers perms
      let rest ← gen2NodupLoop hash perms isoset' cs
      return c :: rest

/-- `gen_2nodup_gen(dup_gen)` (ababe/stru/sogen.py:184-196) -/
def OGen.gen2Nodup (hash : List ℤ → ℕ) (g : OGen) (dup : List GCell) : Py (List GCell) :=
  gen2NodupLoop hash g.perms [] dup

/-- `gen_nodup_unitary` (ababe/stru/sogen.py:63-75) -/
def OGen.genNodupUnitary (hash : List ℤ → ℕ) (g : OGen) (n : ℕ) (sp : Specie) : Py (List GCell) := do
  g.gen2Nodup hash (← g.genDupUnitary n sp)

/-- `gen_nodup` (ababe/stru/sogen.py:89-91) -/
def OGen.genNodup (hash : List ℤ → ℕ) (g : OGen) (wy : String) (n : ℕ) (sp : Specie) : Py (List GCell) := do
  g.gen2Nodup hash (← g.genDup wy n sp)

/-- `gen_nodup_of_ele` (ababe/stru/sogen.py:107-109) -/
def OGen.genNodupOfEle (hash : List ℤ → ℕ) (g : OGen) (ele : Specie) (n : ℕ) (sp : Specie) : Py (List GCell) := do
  g.gen2Nodup hash (← g.genDupOfEle ele n sp)

/-- `gen_nodup_trinary_alloy` (ababe/stru/sogen.py:129-131) -/
def OGen.genNodupTrinary (hash : List ℤ → ℕ) (g : OGen) (sp1 : Specie) (n1 : ℕ) (sp2 : Specie) (n2 : ℕ) :
    Py (List GCell) := do
  g.gen2Nodup hash (← g.genDupTrinary sp1 n1 sp2 n2)

/-- the candidates of one cell in `gen_add_one_speckle*`, in index order: the copies of `numbers` with one admissible
site overwritten by `atom` (ababe/stru/sogen.py:143-146, 157-161, 174-177). `ok i v` is the `if` condition. -/
def addOneCands (ok : ℕ → ℤ → Bool) (atom : ℤ) (numbers : List ℤ) : List (List ℤ) :=
  (numbers.zipIdx.filter (fun p => ok p.2 p.1)).map (fun p => numbers.set p.2 atom)

/-- the loop of `gen_add_one_speckle*` over the candidates of one cell (ababe/stru/sogen.py:147-151, 162-166, 178-182) -/
def addOneInner (hash : List ℤ → ℕ) (c : GCell) : List (List ℤ) → List ℕ → Py (List GCell × List ℕ)
  | [], db => .ok ([], db)
  | nn :: rest, db =>
    if hash nn ∈ db then addOneInner hash c rest db
    else do
      let cell ← GCell.new c.lattice c.positions nn
      let r ← addOneInner hash c rest (hash nn :: db)
      return (cell :: r.1, r.2)

/-- the outer loop of `gen_add_one_speckle*` (ababe/stru/sogen.py:140-151) -/
def addOneLoop (hash : List ℤ → ℕ) (ok : ℕ → ℤ → Bool) (atom : ℤ) : List GCell → List ℕ → Py (List GCell)
  | [], _ => .ok []
  | c :: cs, db => do
    let r ← addOneInner hash c (addOneCands ok atom c.numbers) db
    let rest ← addOneLoop hash ok atom cs r.2
    return r.1 ++ rest

/-- `gen_add_one_speckle_unitary(gen, sp)` (ababe/stru/sogen.py:133-151) -/
def OGen.addOneUnitary (hash : List ℤ → ℕ) (_g : OGen) (gen : List GCell) (sp : Specie) : Py (List GCell) :=
  addOneLoop hash (fun _ v => sp.Z != v) sp.Z gen []

/-- `gen_add_one_speckle(gen, wy, sp)` (ababe/stru/sogen.py:153-166); `zip(self.wyckoffs, cell.numbers)` stops at the
shorter list -/
def OGen.addOne (hash : List ℤ → ℕ) (g : OGen) (gen : List GCell) (wy : String) (sp : Specie) : Py (List GCell) :=
  addOneLoop hash (fun i v => g.wyckoffs[i]? == some wy && sp.Z != v) sp.Z gen []

/-- `gen_add_one_speckle_of_ele(gen, ele, sp)` (ababe/stru/sogen.py:168-182) -/
def OGen.addOneOfEle (hash : List ℤ → ℕ) (_g : OGen) (gen : List GCell) (ele sp : Specie) : Py (List GCell) :=
  addOneLoop hash (fun _ v => v == ele.Z && v != sp.Z) sp.Z gen []

/-- the loop of `all_speckle_gen*` (ababe/stru/sogen.py:213-218, 225-230, 237-242): `step` is
`gen_add_one_speckle*` followed by `gen_2nodup_gen`; one yielded generator per iteration -/
def levels (step : List GCell → Py (List GCell)) : ℕ → List GCell → Py (List (List GCell))
  | 0, _ => .ok []
  | k + 1, gen => do
    let gen' ← step gen
    let rest ← levels step k gen'
    return gen' :: rest

/-- `all_speckle_gen_unitary(n, sp)` (ababe/stru/sogen.py:205-218); `range(n_init, n)` has `n - n_init` elements -/
def OGen.allSpeckleUnitary (hash : List ℤ → ℕ) (g : OGen) (n : ℕ) (sp : Specie) : Py (List (List GCell)) :=
  levels (fun gen => do g.gen2Nodup hash (← g.addOneUnitary hash gen sp)) (n - g.init.getSpeckleNum sp) [g.init]

/-- `all_speckle_gen(n, wy, sp)` (ababe/stru/sogen.py:220-230) -/
def OGen.allSpeckle (hash : List ℤ → ℕ) (g : OGen) (n : ℕ) (wy : String) (sp : Specie) : Py (List (List GCell)) :=
  levels (fun gen => do g.gen2Nodup hash (← g.addOne hash gen wy sp)) (n - g.init.getSpeckleNum sp) [g.init]

/-- `all_speckle_gen_of_ele(n, ele, sp)` (ababe/stru/sogen.py:232-242) -/
def OGen.allSpeckleOfEle (hash : List ℤ → ℕ) (g : OGen) (n : ℕ) (ele sp : Specie) : Py (List (List GCell)) :=
  levels (fun gen => do g.gen2Nodup hash (← g.addOneOfEle hash gen ele sp)) (n - g.init.getSpeckleNum sp) [g.init]

end Verif
