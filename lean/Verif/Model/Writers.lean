import Verif.Model.Apps
import Verif.Model.CellArrays

/-! # Writer objects and the file system: `VaspOutput`, `YamlOutput`, `VaspPOSCAR`, `GeneralIO`

The writers are objects that keep references to the arrays of the cell (see `Verif/Model/CellArrays.lean`). -/

namespace Verif

/-- the classes of writers and their argument `zoom` -/
inductive WKind
  /-- `VaspOutput` (ababe/io/vasp.py:54-122) and `VaspPOSCAR` (ababe/stru/io.py:64-131), the same code -/
  | vasp (zoom : ℤ)
  /-- `YamlOutput` of ababe/io/yaml.py:47-94 -/
  | yaml
  /-- `YamlOutput` of ababe/stru/io.py:12-61 -/
  | yamlOld (zoom : ℚ)

/-- a writer object: references of arrays, and what was computed when it was made -/
inductive Writer
  /-- attributes `lattice`, `positions`, `numbers`, `atoms_name_list`, `zoom` (ababe/io/vasp.py:56-65, ababe/stru/io.py:66-74) -/
  | vasp (lat pos num : ℕ) (names : List String) (zoom : ℤ)
  /-- `np.around` makes new arrays `lattice` and `positions`, here values because nobody else has them; `numbers` is the array of the cell
  (ababe/io/yaml.py:49-64) -/
  | yaml (lattice : M3 ℚ) (positions : List (V3 ℚ)) (num : ℕ) (comment : List Char)
  /-- ababe/stru/io.py:14-22 -/
  | yamlOld (lat pos num : ℕ) (names : List String) (zoom : ℚ)

/-- the constructors (ababe/io/vasp.py:56-65, ababe/io/yaml.py:49-64, ababe/stru/io.py:14-22 and 66-74) for the cell object `o`, whose
arrays hold `L`, `P` and `N` -/
def Writer.init (o : CellObj) (L : M3 ℚ) (P : List (V3 ℚ)) (N : List ℤ) : WKind → Py Writer
  | .vasp zoom => do
    let names ← atomNames N
    return .vasp o.lat o.pos o.num names zoom
  | .yaml => do
    let names ← atomNames N
    let atoms ← orderedAtoms names
    return .yaml (V3.map (V3.map (around 6)) L) (P.map (V3.map (around 6))) o.num (commentOf atoms)
  | .yamlOld zoom => do
    let names ← atomNames N
    return .yamlOld o.lat o.pos o.num names zoom

/-- making a writer for a cell of the heap -/
def Writer.make (w : Arrays) (k : WKind) (c : ℕ) : Py Writer :=
  match w.cells[c]? with
  | none => .error .nameError
  | some o =>
    match w.lats[o.lat]?, w.poss[o.pos]?, w.nums[o.num]? with
    | some L, some P, some N => Writer.init o L P N k
    | _, _, _ => .error .nameError

/-- the lines of `get_string(direct)` from the attributes of the writer (ababe/io/vasp.py:67-105, ababe/stru/io.py:77-114); `vaspLines` of
`Verif/Model/Io.lean` is this for a writer just made -/
def vaspBody (L : M3 ℚ) (P : List (V3 ℚ)) (N : List ℤ) (names : List String) (zoom : ℤ) (direct : Bool) : Py (List (List Char)) := do
  let atoms ← orderedAtoms names
  let sorted := (N.zip (P.zip names)).insertionSort fun a b => a.1 ≤ b.1
  return [commentOf atoms, intStr zoom] ++ L.toList.map numberLine
    ++ [pyJoin [' '] (atoms.map fun kv => kv.1.toList), pyJoin [' '] (atoms.map fun kv => natStr kv.2),
        (if direct then "direct".toList else "cartesian".toList)]
    ++ (sorted.filter fun t => t.1 ≠ 0).map fun t => numberLine t.2.1 ++ [' '] ++ t.2.2.toList

/-- `get_string()` (ababe/io/vasp.py:67-105, ababe/io/yaml.py:66-78, ababe/stru/io.py:24-44 and 76-114), with the arrays as they are now -/
def Writer.getString (w : Arrays) : Writer → Py FileContent
  | .vasp l p n names zoom =>
    match w.lats[l]?, w.poss[p]?, w.nums[n]? with
    | some L, some P, some N => do
      let lines ← vaspBody L P N names zoom true
      return .text (pyJoin ['\n'] lines ++ ['\n'])
    | _, _, _ => .error .nameError
  | .yaml L P n comment =>
    match w.nums[n]? with
    | some N => .ok (.doc ⟨some comment, some L, some P, some N, some 1⟩)
    | none => .error .nameError
  | .yamlOld l p n names zoom =>
    match w.lats[l]?, w.poss[p]?, w.nums[n]? with
    | some L, some P, some N => do
      let atoms ← orderedAtoms names
      return .doc ⟨some (commentOf atoms), some L, some P, some N, some zoom⟩
    | _, _, _ => .error .nameError

/-- `write_file(filename)` and `write(filename)` (ababe/io/vasp.py:107-112, ababe/io/yaml.py:80-85, ababe/stru/io.py:46-51 and 126-131):
`open(filename, "w")` empties the file before `get_string` runs. Simplification: opening fails only for a directory and the empty name. -/
def Writer.writeFile (w : Arrays) (x : Writer) (p : List Char) (fs : Fs) : Fs × Py Unit :=
  if p = [] ∨ p ∈ fs.dirs then (fs, .error .osError)
  else
    match x.getString w with
    | .error e => (fs.write p (.text []), .error e)
    | .ok t => ((fs.write p (.text [])).write p t, .ok ())

/-- the class chosen by `GeneralIO.write_file` (ababe/io/io.py:23-26) -/
def Fmt.writer : Fmt → WKind
  | .yaml => .yaml
  | .vasp => .vasp 1

/-- `GeneralIO(gcell).write_file(fname, fmt)` (ababe/io/io.py:14-31): the new file system, and what is printed when there is no name -/
def gioWrite (w : Arrays) (c : ℕ) (fname fmt : Option (List Char)) (fs : Fs) : Fs × Py (Option FileContent) :=
  match dispatch (fname.getD []) fmt with
  | .error e => (fs, .error e)
  | .ok f =>
    match Writer.make w f.writer c with
    | .error e => (fs, .error e)
    | .ok x =>
      if fname.getD [] = [] then
        match x.getString w with
        | .error e => (fs, .error e)
        | .ok t => (fs, .ok (some t))
      else
        match x.writeFile w (fname.getD []) fs with
        | (fs', .error e) => (fs', .error e)
        | (fs', .ok ()) => (fs', .ok none)

/-- `GeneralIO.from_file(fname, fmt)` (ababe/io/io.py:33-45): the format is chosen before the file is opened -/
def gioRead (root : ℚ → ℚ) (fname fmt : Option (List Char)) (fs : Fs) : Py GCell :=
  match dispatch (fname.getD []) fmt with
  | .error e => .error e
  | .ok _ =>
    match dictGet fs.files (fname.getD []) with
    | none => .error .osError
    | some content => readFile root content (fname.getD []) fmt

end Verif
