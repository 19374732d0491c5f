import Verif.Model.Sogen

/-! # The bytes behind an id

`GeneralCell.id` (ababe/stru/scaffold.py:328-331) and `numbers2id` (ababe/stru/sogen.py:22-24) hash the memory of the array of atomic
numbers. What is in the memory depends on the integer type of the array: a cell read from a file has 8-byte integers, a cell made by
spglib (`get_refined_cell`, `get_refined_pcell`, ababe/stru/scaffold.py:378-408) has 4-byte integers, and `copy`, indexing and item
assignment keep the type. `Model/Sogen` hashes lists of integers; here the hash gets the bytes.

Simplifications: little-endian machine; integer types only; the arrays are contiguous (those a `GeneralCell` makes by indexing are). -/

namespace Verif

/-- the lowest `w` bytes of a number, lowest first -/
def leBytes : ℕ → ℕ → List ℕ
  | 0, _ => []
  | w + 1, v => v % 256 :: leBytes w (v / 256)

/-- an entry of an array with `w`-byte integers (two's complement) -/
def intBytes (w : ℕ) (z : ℤ) : List ℕ := leBytes w (z % 2 ^ (8 * w)).toNat

/-- the buffer of an array with `w`-byte integers, which `xxhash.xxh64` reads (ababe/stru/scaffold.py:330, ababe/stru/sogen.py:23) -/
def bufBytes (w : ℕ) (l : List ℤ) : List ℕ := l.flatMap (intBytes w)

/-- what `arr[i] = z` leaves in an array with `w`-byte integers (ababe/stru/sogen.py:60, 87, 105, 123-125, 145, 161, 178): the number
modulo `2^(8w)`. (Recent numpy versions raise instead if this changes the number.) -/
def storeInt (w : ℕ) (signed : Bool) (z : ℤ) : ℤ :=
  if signed then (z + 2 ^ (8 * w - 1)) % 2 ^ (8 * w) - 2 ^ (8 * w - 1) else z % 2 ^ (8 * w)

/-- a cell with the width of its integers -/
structure TCell where
  width : ℕ
  cell : GCell

/-- the property `id` (ababe/stru/scaffold.py:328-331); `xx` stands for `xxhash.xxh64(·).intdigest()` of a buffer -/
def TCell.id (xx : List ℕ → ℕ) (c : TCell) : ℕ := xx (bufBytes c.width c.cell.numbers)

/-- the loop of `gen_2nodup_gen` (ababe/stru/sogen.py:184-202); the images `numbers[ind]` keep the type of `numbers` -/
def nodupTyped (xx : List ℕ → ℕ) (perms : List (List ℕ)) : List ℕ → List TCell → Py (List TCell)
  | _, [] => .ok []
  | isoset, c :: cs =>
    if c.id xx ∈ isoset then nodupTyped xx perms isoset cs
    else do
      let isoset' ← updateIsoset (fun m => xx (bufBytes c.width m)) isoset c.cell.numbers perms
      let rest ← nodupTyped xx perms isoset' cs
      return c :: rest

/-- `gen_2nodup_gen(dup_gen)` (ababe/stru/sogen.py:184-196) -/
def OGen.gen2NodupTyped (xx : List ℕ → ℕ) (g : OGen) (dup : List TCell) : Py (List TCell) := nodupTyped xx g.perms [] dup

end Verif
