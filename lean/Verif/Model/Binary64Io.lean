import Verif.Model.Binary64
import Verif.Model.Io

/-! # Files in double precision

`Model/Io` reads and writes exact numbers. Here the same functions with doubles (C94). Python's `float(text)` is the double nearest to the
decimal number, and `'{:10.6f}'.format` rounds the exact value of the double, so that the written text is that of `Model/Io`. YAML texts
hold the shortest decimal that reads back as the same double, so that the mapping of `Model/Io` is read as it was written.
Simplification: no overflow, infinities, NaN and negative zero. -/

namespace Verif

/-- `np.around(x, decimals=k)` (ababe/io/vasp.py:26-28, 44-46, ababe/io/yaml.py:38-39, 50-51) in double precision: multiply by `10^k`,
round to an integer, divide by `10^k` -/
def npAround (k : ℕ) (x : ℚ) : ℚ := fl64 (rint (fl64 (x * 10 ^ k)) / 10 ^ k)

/-- `VaspInput.from_string(content)` (ababe/io/vasp.py:19-48) in double precision; `factor zoom lattice` is the computed
`(-zoom / vol) ** (1 / 3)` of a negative scale factor -/
def vaspFromString64 (factor : ℚ → M3 ℚ → ℚ) (content : List Char) : Py (M3 ℚ × List (V3 ℚ) × List ℤ) := do
  let (zoom, lattice, positions, numbers) ← vaspParse content
  let z := fl64 zoom
  let l := V3.map (V3.map fun x => npAround 4 (fl64 x)) lattice
  let s := if z < 0 then factor z l else z
  return (V3.map (V3.map fun x => fl64 (x * s)) l, positions.map (V3.map fun x => npAround 4 (fl64 x)), numbers)

/-- `VaspInput(filename).get_cell()` (ababe/io/vasp.py:13-17, 50-51) in double precision -/
def vaspReadCell64 (factor : ℚ → M3 ℚ → ℚ) (content : List Char) : Py GCell := do
  let (lattice, positions, numbers) ← vaspFromString64 factor content
  GCell.new64 lattice positions numbers

/-- `YamlOutput(gcell).get_string()` up to `yaml.dump` (ababe/io/yaml.py:47-78) in double precision -/
def yamlDoc64 (c : GCell) : Py YDoc := do
  let names ← atomNames c.numbers
  let atoms ← orderedAtoms names
  return ⟨some (commentOf atoms), some (V3.map (V3.map (npAround 6)) c.lattice), some (c.positions.map (V3.map (npAround 6))),
    some c.numbers, some 1⟩

/-- `YamlInput.from_string(content)` after `yaml.load` (ababe/io/yaml.py:30-42) in double precision -/
def yamlFromDoc64 (d : YDoc) : Py (M3 ℚ × List (V3 ℚ) × List ℤ) := do
  let l ← need d.lattice
  let z ← need d.zoom
  let p ← need d.positions
  let n ← need d.numbers
  return (V3.map (V3.map fun x => npAround 4 (fl64 (x * z))) l, p.map (V3.map (npAround 4)), n)

/-- `YamlInput(filename).get_cell()` (ababe/io/yaml.py:24-28, 44-45) in double precision -/
def yamlReadCell64 (d : YDoc) : Py GCell := do
  let (lattice, positions, numbers) ← yamlFromDoc64 d
  GCell.new64 lattice positions numbers

end Verif
