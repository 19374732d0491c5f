import Verif.Model.Sogen

/-! # Generators whose consumer changes the structures it is given

`gen_2nodup_gen` (ababe/stru/sogen.py:184-196) reads `cell.numbers` of the structure it has yielded when the consumer asks for the next
one. By then the consumer may have assigned `cell.numbers = arr` (ababe/stru/scaffold.py:302-304) or written into the array. The other
modules assume that it does not; here it may.

Simplifications: a structure is changed before the next call or never again; the lattice array, which all structures of a run share, is
not written; positions are not changed either (nothing in the loops below depends on them); for `all_speckle_gen*` one level is consumed
after the other. -/

namespace Verif

/-- What the consumer does: from the structures received before (each with the numbers it was left with) and the structure just received,
the numbers of the latter at the time of the next call. -/
abbrev Use := List (GCell × List ℤ) → GCell → List ℤ

/-- a consumer that only looks at the structures -/
def Use.look : Use := fun _ c => c.numbers

/-- the loop of `gen_2nodup_gen` (ababe/stru/sogen.py:189-196) with a consumer; yields every structure with the numbers it was left with -/
def nodupUse (hash : List ℤ → ℕ) (perms : List (List ℕ)) (use : Use) : List (GCell × List ℤ) → List ℕ → List GCell →
    Py (List (GCell × List ℤ))
  | _, _, [] => .ok []
  | past, isoset, c :: cs =>
    if c.id hash ∈ isoset then nodupUse hash perms use past isoset cs
    else do
      let left := use past c
      let isoset' ← updateIsoset hash isoset left perms
      let rest ← nodupUse hash perms use (past ++ [(c, left)]) isoset' cs
      return (c, left) :: rest

/-- `gen_2nodup_gen(dup_gen)` (ababe/stru/sogen.py:184-196) with a consumer -/
def OGen.gen2NodupUse (hash : List ℤ → ℕ) (g : OGen) (use : Use) (dup : List GCell) : Py (List (GCell × List ℤ)) :=
  nodupUse hash g.perms use [] [] dup

/-- the structures as the consumer left them -/
def leftCells (out : List (GCell × List ℤ)) : List GCell := out.map fun x => x.1.setNumbers x.2

/-- the loop of `all_speckle_gen*` (ababe/stru/sogen.py:211-218, 224-230, 236-242), every level being consumed before the next one is
asked for. The second branch of the `tee` hands the same objects to the next level, as the consumer left them. `use k` is what the
consumer does with level `k`. -/
def levelsUse (step : Use → List GCell → Py (List (GCell × List ℤ))) (use : ℕ → Use) : ℕ → ℕ → List GCell →
    Py (List (List (GCell × List ℤ)))
  | 0, _, _ => .ok []
  | K + 1, k, gen => do
    let out ← step (use k) gen
    let rest ← levelsUse step use K (k + 1) (leftCells out)
    return out :: rest

/-- `all_speckle_gen_unitary(n, sp)` (ababe/stru/sogen.py:205-218) with a consumer -/
def OGen.allSpeckleUnitaryUse (hash : List ℤ → ℕ) (g : OGen) (use : ℕ → Use) (n : ℕ) (sp : Specie) :
    Py (List (List (GCell × List ℤ))) :=
  levelsUse (fun u gen => do g.gen2NodupUse hash u (← g.addOneUnitary hash gen sp)) use (n - g.init.getSpeckleNum sp) 0 [g.init]

/-- `all_speckle_gen(n, wy, sp)` (ababe/stru/sogen.py:220-230) with a consumer -/
def OGen.allSpeckleUse (hash : List ℤ → ℕ) (g : OGen) (use : ℕ → Use) (n : ℕ) (wy : String) (sp : Specie) :
    Py (List (List (GCell × List ℤ))) :=
  levelsUse (fun u gen => do g.gen2NodupUse hash u (← g.addOne hash gen wy sp)) use (n - g.init.getSpeckleNum sp) 0 [g.init]

/-- `all_speckle_gen_of_ele(n, ele, sp)` (ababe/stru/sogen.py:232-242) with a consumer -/
def OGen.allSpeckleOfEleUse (hash : List ℤ → ℕ) (g : OGen) (use : ℕ → Use) (n : ℕ) (ele sp : Specie) :
    Py (List (List (GCell × List ℤ))) :=
  levelsUse (fun u gen => do g.gen2NodupUse hash u (← g.addOneOfEle hash gen ele sp)) use (n - g.init.getSpeckleNum sp) 0 [g.init]

end Verif
