import Verif.Model.Sogen
import Verif.Model.BuckyData

/-! # Model of `Structure` (ababe/stru/buckyball.py)

Number arrays are `List ℤ`, generators the list of what they yield. `hash` stands for `xxhash.xxh32(·).intdigest()`
(ababe/stru/buckyball.py:164-171): an arbitrary function, so every collision of the 32-bit digest is included.
Simplifications: the parts that only call spglib (`get_spacegroup`, `get_symmetry`) and `get_name` are left out; the first
generator of `all_speckle_gen` hands out the structure's own array and a consumer writing into it is not modelled. -/

namespace Verif

/-- `_buckyball["positions"]` (ababe/stru/buckyball.py:14-16, ababe/stru/buckyball.json), in file order -/
def buckyFilePositions : List (V3 ℚ) :=
  buckyPositionsNano.map fun p => ((p.1 : ℚ) / 10 ^ 9, (p.2.1 : ℚ) / 10 ^ 9, (p.2.2 : ℚ) / 10 ^ 9)

/-- the coordinate reduction of `_get_new_id_seq` (ababe/stru/buckyball.py:91-93): `np.around(x, 5)`, `round(x % 1, 3)` -/
def buckyKey (p : V3 ℚ) : V3 ℚ := V3.map (fun x => around 3 (mod1 (around 5 x))) p

/-- A `Structure` object (ababe/stru/buckyball.py:27-39): `_positions`, `_atom_numbers`, `_sym_perm`. -/
structure Bucky where
  positions : List (V3 ℚ)
  numbers : List ℤ
  symPerm : List (List ℕ)

/-- `Structure(numbers)` (ababe/stru/buckyball.py:27-39): the positions are sorted, the numbers are kept as given -/
def Bucky.new (numbers : List ℤ) : Py Bucky := do
  let initIndex := lexsort3 (buckyFilePositions.map buckyKey)
  let ps ← fancy buckyFilePositions initIndex
  return { positions := ps, numbers := numbers, symPerm := buckyPermTable }

/-- `get_speckle_num(sp)` (ababe/stru/buckyball.py:48-54) -/
def Bucky.getSpeckleNum (b : Bucky) (sp : Specie) : ℕ := b.numbers.count sp.Z

/-- `gen_speckle(sp, noa)` (ababe/stru/buckyball.py:118-131) -/
def buckyGenSpeckle (sp : Specie) (noa : ℕ) : List (List ℤ) :=
  (combinations (List.range 60) noa).map fun comb => overwrite (List.replicate 60 6) comb sp.Z

/-- `help_add_one_speckle(l, sp)` (ababe/stru/buckyball.py:133-140) -/
def buckyHelpAddOne (l : List ℤ) (sp : Specie) : List (List ℤ) :=
  (l.zipIdx.filter fun p => p.1 != sp.Z).map fun p => l.set p.2 sp.Z

/-- the inner loop of `add_one_speckle_generator` (ababe/stru/buckyball.py:152-161): `rest` is what is left of
`enumerate(s_atoms)`, `db` the keys of `idy_seq` -/
def buckyAddInner (hash : List ℤ → ℕ) (atom : ℤ) (s : List ℤ) : List (ℤ × ℕ) → List ℕ → List (List ℤ) × List ℕ
  | [], db => ([], db)
  | (val, index) :: rest, db =>
    if val ≠ atom then
      let arr := s.set index atom
      if hash arr ∈ db then buckyAddInner hash atom s rest db
      else
        let r := buckyAddInner hash atom s rest (hash arr :: db)
        (arr :: r.1, r.2)
    else buckyAddInner hash atom s rest db

/-- the outer loop of `add_one_speckle_generator` (ababe/stru/buckyball.py:151) -/
def buckyAddLoop (hash : List ℤ → ℕ) (atom : ℤ) : List (List ℤ) → List ℕ → List (List ℤ)
  | [], _ => []
  | s :: gen, db =>
    let r := buckyAddInner hash atom s s.zipIdx db
    r.1 ++ buckyAddLoop hash atom gen r.2

/-- `add_one_speckle_generator(gen, sp)` (ababe/stru/buckyball.py:142-161) -/
def buckyAddOne (hash : List ℤ → ℕ) (gen : List (List ℤ)) (sp : Specie) : List (List ℤ) := buckyAddLoop hash sp.Z gen []

/-- `_update_isoset(isoset, atoms, sym_perm)` (ababe/stru/buckyball.py:173-177); `atoms[ind]` raises IndexError for an
index outside the array -/
def buckyUpdateIsoset (hash : List ℤ → ℕ) (isoset : List ℕ) (atoms : List ℤ) : List (List ℕ) → Py (List ℕ)
  | [] => .ok isoset
  | ind :: rest => do
    let atomsNew ← fancy atoms ind
    buckyUpdateIsoset hash (hash atomsNew :: isoset) atoms rest

/-- the loop of `to_nodup_generator` (ababe/stru/buckyball.py:189-194) -/
def buckyNodupLoop (hash : List ℤ → ℕ) (symPerm : List (List ℕ)) (isoset : List ℕ) : List (List ℤ) → Py (List (List ℤ))
  | [] => .ok []
  | atoms :: rest =>
    if hash atoms ∈ isoset then buckyNodupLoop hash symPerm isoset rest
    else do
      let isoset' ← buckyUpdateIsoset hash isoset atoms symPerm
      let r ← buckyNodupLoop hash symPerm isoset' rest
      return atoms :: r

/-- `to_nodup_generator(dup_gen)` (ababe/stru/buckyball.py:181-194) -/
def Bucky.toNodup (hash : List ℤ → ℕ) (b : Bucky) (dup : List (List ℤ)) : Py (List (List ℤ)) :=
  buckyNodupLoop hash b.symPerm [] dup

/-- the loop of `all_speckle_gen` (ababe/stru/buckyball.py:208-213) -/
def Bucky.levels (hash : List ℤ → ℕ) (b : Bucky) (sp : Specie) : ℕ → List (List ℤ) → Py (List (List (List ℤ)))
  | 0, _ => .ok []
  | k + 1, gen => do
    let gen' ← b.toNodup hash (buckyAddOne hash gen sp)
    let rest ← b.levels hash sp k gen'
    return gen' :: rest

/-- `all_speckle_gen(bucky_stru, n_max, sp)` (ababe/stru/buckyball.py:201-213); one list per yielded generator -/
def Bucky.allSpeckleGen (hash : List ℤ → ℕ) (b : Bucky) (nMax : ℕ) (sp : Specie) : Py (List (List (List ℤ))) := do
  let rest ← b.levels hash sp (nMax - b.getSpeckleNum sp) [b.numbers]
  return [b.numbers] :: rest

end Verif
