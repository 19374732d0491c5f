import Verif.Model.GeneralCell
import Verif.Py.Text

/-! # Model of ababe/io/vasp.py, ababe/io/yaml.py, ababe/io/io.py, ababe/stru/io.py and `GeneralCell.comment`

Texts are lists of characters. -/

namespace Verif

/-- `Counter(names)`: the dictionary in order of first occurrence -/
def counter (names : List String) : List (String × ℕ) :=
  names.foldl (fun d s => if d.any (fun kv => kv.1 == s) then d.map (fun kv => if kv.1 == s then (kv.1, kv.2 + 1) else kv) else d ++ [(s, 1)]) []

/-- `list(map(lambda x: Specie.to_name(x), list(numbers)))` (ababe/io/vasp.py:61-62, ababe/io/yaml.py:54-55,
ababe/stru/io.py:19-20 and 71-72, ababe/stru/scaffold.py:309-310) -/
def atomNames (numbers : List ℤ) : Py (List String) := numbers.mapM Specie.toName

/-- `OrderedDict(sorted(Counter(names).items(), key=lambda x: Specie(x[0]).Z))` with `'G'` deleted
(ababe/io/vasp.py:74-78, ababe/io/yaml.py:56-61, ababe/stru/io.py:29-33 and 83-87, ababe/stru/scaffold.py:311-315) -/
def orderedAtoms (names : List String) : Py (List (String × ℕ)) := do
  let keyed ← (counter names).mapM fun kv => do
    let sp ← Specie.ofSymbol kv.1
    return (sp.Z, kv)
  return ((keyed.insertionSort fun a b => a.1 ≤ b.1).map (·.2)).filter fun kv => kv.1 ≠ "G"

/-- `''.join(['{}{}'.format(k, v) for k, v in ordered_atoms.items()])` (ababe/io/vasp.py:80-81 and the same in the others) -/
def commentOf (atoms : List (String × ℕ)) : List Char := atoms.flatMap fun kv => kv.1.toList ++ natStr kv.2

/-- the property `GeneralCell.comment` (ababe/stru/scaffold.py:306-319) -/
def GCell.comment (c : GCell) : Py (List Char) := do
  let names ← atomNames c.numbers
  let atoms ← orderedAtoms names
  return commentOf atoms

/-- `" ".join("{:10.6f}".format(p) for p in c)` (ababe/io/vasp.py:86, 101; ababe/stru/io.py:95, 110) -/
def numberLine (p : V3 ℚ) : List Char := pyJoin [' '] [fmt106 p.1, fmt106 p.2.1, fmt106 p.2.2]

/-- the lines of `VaspOutput(gcell, zoom=zoom).get_string(direct)` (ababe/io/vasp.py:56-105); `VaspPOSCAR`
(ababe/stru/io.py:64-114) is the same code. Simplification: `zoom` is an integer (the default is 1). -/
def vaspLines (c : GCell) (zoom : ℤ) (direct : Bool) : Py (List (List Char)) := do
  let names ← atomNames c.numbers
  let atoms ← orderedAtoms names
  let sorted := (c.numbers.zip (c.positions.zip names)).insertionSort fun a b => a.1 ≤ b.1
  return [commentOf atoms, intStr zoom] ++ c.lattice.toList.map numberLine
    ++ [pyJoin [' '] (atoms.map fun kv => kv.1.toList), pyJoin [' '] (atoms.map fun kv => natStr kv.2),
        (if direct then "direct".toList else "cartesian".toList)]
    ++ (sorted.filter fun t => t.1 ≠ 0).map fun t => numberLine t.2.1 ++ [' '] ++ t.2.2.toList

/-- `VaspOutput(gcell, zoom=zoom).get_string(direct)` (ababe/io/vasp.py:105) -/
def vaspString (c : GCell) (zoom : ℤ) (direct : Bool) : Py (List Char) := do
  let lines ← vaspLines c zoom direct
  return pyJoin ['\n'] lines ++ ['\n']

/-- the lattice scaling of `VaspInput.from_string` (ababe/io/vasp.py:29-35), over any ordered field; `root` stands for
`x ** (1/3)` -/
def scaleLattice {α} [Field α] [LinearOrder α] (root : α → α) (zoom : α) (lattice : M3 α) : M3 α :=
  if zoom < 0 then smulM (root (-zoom / |det lattice|)) lattice else smulM zoom lattice

/-- three numbers of a line. Simplification: any other number of words is a `ValueError` (numpy would build an array of another
shape and fail later). -/
def row3 (ws : List (List Char)) : Py (V3 ℚ) := do
  let xs ← ws.mapM parseFloat
  match xs with
  | [a, b, c] => return (a, b, c)
  | _ => .error .valueError

/-- `lines[i]` -/
def lineAt (lines : List (List Char)) (i : ℕ) : Py (List Char) :=
  match lines[i]? with | some l => .ok l | none => .error .indexError

/-- the loop building `numbers` (ababe/io/vasp.py:39-41), from position `i` of `nsymbols`; `s * [x]` is empty for `s ≤ 0` -/
def expandNumbers (nsymbols : List ℤ) : ℕ → List ℤ → Py (List ℤ)
  | _, [] => .ok []
  | i, s :: ss => do
    let z ← (match nsymbols[i]? with | some z => .ok z | none => .error .indexError : Py ℤ)
    let rest ← expandNumbers nsymbols (i + 1) ss
    return List.replicate s.toNat z ++ rest

/-- `Specie(s).Z` (ababe/io/vasp.py:37) -/
def symbolZ (s : List Char) : Py ℤ := do
  let sp ← Specie.ofSymbol (String.ofList s)
  return sp.Z

/-- the numbers read by `VaspInput.from_string(content)` before rounding (ababe/io/vasp.py:21-28, 37-48): scale factor, lattice,
positions, atomic numbers -/
def vaspParse (content : List Char) : Py (ℚ × M3 ℚ × List (V3 ℚ) × List ℤ) := do
  let lines := (splitNL content).filter notBlank
  let _ ← lineAt lines 0
  let l1 ← lineAt lines 1
  let zoom ← parseFloat l1
  let rows ← ((lines.drop 2).take 3).mapM fun l => row3 (words l)
  let lattice ← (match rows with
    | [a, b, c] => .ok (a, b, c)
    | _ => .error .valueError : Py (M3 ℚ))
  let l5 ← lineAt lines 5
  let nsymbols ← (words l5).mapM symbolZ
  let l6 ← lineAt lines 6
  let natoms ← (words l6).mapM parseInt
  let numbers ← expandNumbers nsymbols 0 natoms
  let positions ← (lines.drop 8).mapM fun l => row3 ((words l).take 3)
  return (zoom, lattice, positions, numbers)

/-- `VaspInput.from_string(content)` (ababe/io/vasp.py:19-48) -/
def vaspFromString (root : ℚ → ℚ) (content : List Char) : Py (M3 ℚ × List (V3 ℚ) × List ℤ) := do
  let (zoom, lattice, positions, numbers) ← vaspParse content
  return (scaleLattice root zoom (V3.map (V3.map (around 4)) lattice), positions.map (V3.map (around 4)), numbers)

/-- `VaspInput(filename).get_cell()` on a file with the given content (ababe/io/vasp.py:13-17, 50-51) -/
def vaspReadCell (root : ℚ → ℚ) (content : List Char) : Py GCell := do
  let (lattice, positions, numbers) ← vaspFromString root content
  GCell.new lattice positions numbers

/-! ### YAML, at the level of the mapping -/

/-- the mapping in a YAML file; a missing key is `none` -/
structure YDoc where
  comment : Option (List Char)
  lattice : Option (M3 ℚ)
  positions : Option (List (V3 ℚ))
  numbers : Option (List ℤ)
  zoom : Option ℚ
  deriving DecidableEq

/-- `YamlOutput(gcell).get_string()` up to `yaml.dump` (ababe/io/yaml.py:47-78) -/
def yamlDoc (c : GCell) : Py YDoc := do
  let names ← atomNames c.numbers
  let atoms ← orderedAtoms names
  return ⟨some (commentOf atoms), some (V3.map (V3.map (around 6)) c.lattice), some (c.positions.map (V3.map (around 6))),
    some c.numbers, some 1⟩

/-- `YamlOutput(gcell, zoom).get_string()` of ababe/stru/io.py:12-44: the same without rounding -/
def yamlDocOld (c : GCell) (zoom : ℚ) : Py YDoc := do
  let names ← atomNames c.numbers
  let atoms ← orderedAtoms names
  return ⟨some (commentOf atoms), some c.lattice, some c.positions, some c.numbers, some zoom⟩

/-- `d[key]` -/
def need {α} : Option α → Py α
  | some x => .ok x
  | none => .error .keyError

/-- `YamlInput.from_string(content)` after `yaml.load` (ababe/io/yaml.py:30-42) -/
def yamlFromDoc (d : YDoc) : Py (M3 ℚ × List (V3 ℚ) × List ℤ) := do
  let l ← need d.lattice
  let z ← need d.zoom
  let p ← need d.positions
  let n ← need d.numbers
  return (V3.map (V3.map fun x => around 4 (x * z)) l, p.map (V3.map (around 4)), n)

/-- `YamlInput(filename).get_cell()` (ababe/io/yaml.py:24-28, 44-45) -/
def yamlReadCell (d : YDoc) : Py GCell := do
  let (lattice, positions, numbers) ← yamlFromDoc d
  GCell.new lattice positions numbers

/-! ### dispatch -/

inductive Fmt
  | yaml
  | vasp
  deriving DecidableEq, Repr

/-- `"" if fmt is None else fmt.lower()` (ababe/io/io.py:21, 38) -/
def fmtKey : Option (List Char) → List Char
  | none => []
  | some f => lower f

/-- the format decision of `GeneralIO.write_file` and `GeneralIO.from_file` (ababe/io/io.py:20-26, 37-43): `fname` is `""` and
`fmt` is `""` when not given; without a match the variable `writer`/`reader` is unbound -/
def dispatch (fname : List Char) (fmt : Option (List Char)) : Py Fmt :=
  if fmtKey fmt = "yaml".toList ∨ fnmatch "*.yaml*".toList (lower fname) = true then .ok .yaml
  else if fmtKey fmt = "vasp".toList ∨ fnmatch "*.vasp".toList (lower fname) = true ∨ fnmatch "*POSCAR*".toList fname = true then .ok .vasp
  else .error .unboundLocalError

/-- content of a file: POSCAR text, or a YAML mapping -/
inductive FileContent
  | text (s : List Char)
  | doc (d : YDoc)

/-- `GeneralIO(gcell).write_file(fname, fmt)` for a non-empty name (ababe/io/io.py:17-31): the content written -/
def writeFile (c : GCell) (fname : List Char) (fmt : Option (List Char)) : Py FileContent := do
  match ← dispatch fname fmt with
  | .yaml => let d ← yamlDoc c; return .doc d
  | .vasp => let s ← vaspString c 1 true; return .text s

/-- `GeneralIO.from_file(fname, fmt)` when the file holds `content` (ababe/io/io.py:33-45). Simplification: a YAML file read as
POSCAR or the reverse is not modelled (an error here). -/
def readFile (root : ℚ → ℚ) (content : FileContent) (fname : List Char) (fmt : Option (List Char)) : Py GCell := do
  match ← dispatch fname fmt, content with
  | .yaml, .doc d => yamlReadCell d
  | .vasp, .text s => vaspReadCell root s
  | _, _ => .error .valueError

end Verif
