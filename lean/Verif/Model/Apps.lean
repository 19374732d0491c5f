import Verif.Model.Io
import Verif.Model.Sogen
import Verif.Model.Grid
import Verif.Model.Restriction
import Verif.Model.Modified
import Verif.Py.Dict

/-! # Model of the command line applications (ababe/cmdline) and of the spglib wrappers of `GeneralCell` they use

The file system is a set of directories and a dictionary from paths to contents. Everything the programs take from outside – spglib, xxhash,
the random number generator, the working directory – is a field of `Ext`. -/

namespace Verif

/-- lattice, positions and numbers of a cell as handed to and returned by spglib -/
abbrev SpgTuple := M3 ℚ × List (V3 ℚ) × List ℤ

/-- the outside world of the applications -/
structure Ext where
  /-- `xxhash.xxh64(·).intdigest()` -/
  hash : List ℤ → ℕ
  /-- `spglib.get_symmetry` -/
  symmetry : GCell → List (M3 ℤ × V3 ℚ)
  /-- `spglib.get_symmetry_dataset(·)['wyckoffs']` -/
  wyckoffs : GCell → List String
  /-- `spglib.find_primitive`; `none` if spglib fails -/
  findPrimitive : SpgTuple → Option SpgTuple
  /-- `spglib.standardize_cell(·, to_primitive=True, no_idealize=False)`; `none` if spglib fails -/
  standardize : SpgTuple → Option SpgTuple
  /-- `spglib.standardize_cell(·, to_primitive=False, no_idealize=False)`; `none` if spglib fails -/
  standardizeConv : SpgTuple → Option SpgTuple
  /-- `x ** (1/3)` -/
  root : ℚ → ℚ
  /-- iteration order of a Python set of integers -/
  setList : List ℕ → List ℕ
  /-- which operand of `==` comes first in `in` on a list -/
  itemFirst : Bool
  /-- `os.getcwd()` -/
  cwd : List Char
  /-- the results of the successive calls of `random.choices` -/
  choices : ℕ → List Char
  /-- the successive candidate names of `tempfile` -/
  tempNames : ℕ → List Char

/-! ### spglib wrappers of `GeneralCell` -/

/-- `is_primitive()` (ababe/stru/scaffold.py:372-374): spglib sees `_spg_cell`; indexing `None` is a TypeError -/
def GCell.isPrimitive (e : Ext) (c : GCell) : Py Bool :=
  match e.findPrimitive (c.lattice, c.positions, c.spgNumbers) with
  | none => .error .typeError
  | some p => .ok (decide (p.2.2.length = c.spgNumbers.length))

/-- `get_refined_pcell()` (ababe/stru/scaffold.py:390-402); unpacking `None` is a TypeError -/
def GCell.getRefinedPcell (e : Ext) (c : GCell) : Py GCell :=
  match e.standardize (c.lattice, c.positions, c.numbers) with
  | none => .error .typeError
  | some p => GCell.new p.1 p.2.1 p.2.2

/-- `get_refined_cell()` (ababe/stru/scaffold.py:376-388) -/
def GCell.getRefinedCell (e : Ext) (c : GCell) : Py GCell :=
  match e.standardizeConv (c.lattice, c.positions, c.numbers) with
  | none => .error .typeError
  | some p => GCell.new p.1 p.2.1 p.2.2

/-- `get_shaped_cell()` (ababe/stru/scaffold.py:404-417): every atom gets its own number, so that spglib sees all atoms as different -/
def GCell.getShapedCell (e : Ext) (c : GCell) : Py GCell :=
  match e.standardize (c.lattice, c.positions, (List.range c.numbers.length).map fun (i : ℕ) => (i : ℤ)) with
  | none => .error .typeError
  | some p => do
    let numbers ← p.2.2.mapM fun i => pyGet c.numbers i
    GCell.new p.1 p.2.1 numbers

/-! ### file system -/

/-- directories and files -/
structure Fs where
  dirs : List (List Char)
  files : List (List Char × FileContent)

/-- `os.path.exists(p)` -/
def Fs.has (fs : Fs) (p : List Char) : Bool := decide (p ∈ fs.dirs) || dictHas fs.files p

/-- `os.makedirs(p)` for a path that does not exist. Simplification: the parents, which are created too, are not recorded. -/
def Fs.makedirs (fs : Fs) (p : List Char) : Fs := { fs with dirs := p :: fs.dirs }

/-- `open(p, "w")` and writing the whole content. Simplification: the directory exists and `p` is not itself a directory. -/
def Fs.write (fs : Fs) (p : List Char) (x : FileContent) : Fs := { fs with files := dictSet fs.files p x }

/-- the path lies inside the directory -/
def inside (dir p : List Char) : Bool := (dir ++ ['/']).isPrefixOf p

/-- `shutil.rmtree(dir)`; a file is rejected -/
def Fs.rmtree (fs : Fs) (dir : List Char) : Py Fs :=
  if dir ∈ fs.dirs then
    .ok ⟨fs.dirs.filter fun d => !(decide (d = dir) || inside dir d), fs.files.filter fun f => !inside dir f.1⟩
  else .error .osError

/-- `os.path.join(a, b)` for a relative, non-empty `b` -/
def pathJoin (a b : List Char) : List Char :=
  match a.getLast? with
  | none => b
  | some '/' => a ++ b
  | some _ => a ++ ['/'] ++ b

/-! ### common parts of the occupation applications -/

/-- `int(num[1])` or `Specie(element).Z` (ababe/cmdline/apps/occupymaker.py:24-28, ababe/cmdline/apps/occupybiter.py:29-33, ababe/cmdline/apps/occupytenter.py:41-44, ababe/cmdline/apps/occupymakert.py:41-44) -/
def targetZ (num : List ℤ) : Option String → Py ℤ
  | none => match num[1]? with | some z => .ok z | none => .error .indexError
  | some s => do
    let sp ← Specie.ofSymbol s
    return sp.Z

/-- `comment or cell.comment` (ababe/cmdline/apps/occupymaker.py:20, ababe/cmdline/apps/occupybiter.py:23) -/
def commentOr (comment : Option (List Char)) (c : GCell) : Py (List Char) :=
  match comment with
  | some (x :: xs) => .ok (x :: xs)
  | _ => c.comment

/-- the condition computed for every structure (ababe/cmdline/apps/occupybiter.py:84-93, ababe/cmdline/apps/occupytenter.py:101-110; ababe/cmdline/apps/occupymaker.py:80-83 and
ababe/cmdline/apps/occupymakert.py:101-104 are the case `mpr = True`); `and` is short-circuit -/
def appCondition (e : Ext) (mpr : Bool) (tr : Option (Specie × ℚ)) (c : GCell) : Py Bool :=
  match mpr, tr with
  | true, some t => do
    if ← c.isPrimitive e then minDistSatisfied t.1 t.2 c else return false
  | true, none => c.isPrimitive e
  | false, some t => minDistSatisfied t.1 t.2 c
  | false, none => .ok true

/-- `(Specie(self.tr[0]), self.tr[1])` (ababe/cmdline/apps/occupymaker.py:73-75, ababe/cmdline/apps/occupybiter.py:79-81, ababe/cmdline/apps/occupytenter.py:86-88, ababe/cmdline/apps/occupymakert.py:81-83) -/
def parseTr : Option (String × ℚ) → Py (Option (Specie × ℚ))
  | none => .ok none
  | some t => do
    let sp ← Specie.ofSymbol t.1
    return some (sp, t.2)

/-- `if self.refined: c = c.get_refined_pcell()` -/
def maybeRefined (e : Ext) (refined : Bool) (c : GCell) : Py GCell := if refined then c.getRefinedPcell e else .ok c

/-- options of `ocumaker` and `ocubiter` -/
structure OccOpts where
  comment : Option (List Char)
  element : Option String
  speckle : Option String
  nspeckle : Option ℤ
  trs : List (String × ℚ)
  refined : Bool
  outmode : List Char
  mpr : Bool

/-- attributes of the application objects of `ocumaker` and `ocubiter` -/
structure OccApp where
  cell : GCell
  comment : List Char
  ele : Specie
  speckle : Specie
  n : ℤ
  tr : Option (String × ℚ)
  refined : Bool
  outmode : List Char
  mpr : Bool

/-- `App.__init__` of ababe/cmdline/apps/occupymaker.py:15-51 (`dflt size = size - 1`, `mpr = True`) and of ababe/cmdline/apps/occupybiter.py:15-57
(`dflt size = size // 2 + 1`), on a file with the given content -/
def occInit (e : Ext) (dflt : ℕ → ℤ) (infile : List Char) (content : FileContent) (o : OccOpts) : Py OccApp := do
  let cell ← readFile e.root content infile none
  let comment ← commentOr o.comment cell
  let z ← targetZ cell.numbers o.element
  let speckle ← (match o.speckle with | none => Specie.ofSymbol "G" | some s => Specie.ofSymbol s)
  let ele ← Specie.fromNum z
  return { cell := cell, comment := comment, ele := ele, speckle := speckle
           n := (match o.nspeckle with | none => dflt (cell.numbers.count z) | some n => n)
           tr := o.trs.head?, refined := o.refined, outmode := o.outmode, mpr := o.mpr }

/-- `'STRUCTURES_{}_{}'.format(comment, suffix)` in the working directory (ababe/cmdline/apps/occupymaker.py:58-63, ababe/cmdline/apps/occupybiter.py:64-69,
ababe/cmdline/apps/occupytenter.py:70-75, ababe/cmdline/apps/occupymakert.py:67-72) -/
def structuresDir (e : Ext) (comment suffix : List Char) : List Char :=
  pathJoin e.cwd ("STRUCTURES_".toList ++ comment ++ ['_'] ++ suffix)

/-- creating the output directory (ababe/cmdline/apps/occupymaker.py:64-68, ababe/cmdline/apps/occupybiter.py:70-74, ababe/cmdline/apps/occupytenter.py:76-80, ababe/cmdline/apps/occupymakert.py:73-77): these
modules do not import `shutil`, so an existing path is a NameError -/
def openDir (fs : Fs) (dir : List Char) : Py Fs := if fs.has dir then .error .nameError else .ok (fs.makedirs dir)

/-- `"STRUCTURE_{:}_{:}.{:}".format(c.comment, f_suffix, self.outmode)` (ababe/cmdline/apps/occupymaker.py:90-92, ababe/cmdline/apps/occupybiter.py:99-101) -/
def structureName (comment suffix outmode : List Char) : List Char :=
  "STRUCTURE_".toList ++ comment ++ ['_'] ++ suffix ++ ['.'] ++ outmode

/-- refining, naming and writing one structure (ababe/cmdline/apps/occupymaker.py:86-94, ababe/cmdline/apps/occupybiter.py:96-103); `suffix` is the result of this call of
`random.choices` -/
def occWriteOne (e : Ext) (refined : Bool) (outmode dir suffix : List Char) (c : GCell) (fs : Fs) : Py Fs := do
  let c ← maybeRefined e refined c
  let comment ← c.comment
  let path := pathJoin dir (structureName comment suffix outmode)
  let content ← writeFile c path none
  return fs.write path content

/-- the loop over the structures (ababe/cmdline/apps/occupymaker.py:77-94, ababe/cmdline/apps/occupybiter.py:83-103); `k` counts the calls of `random.choices`. Writes made before an exception
remain. -/
def occLoop (e : Ext) (mpr : Bool) (tr : Option (Specie × ℚ)) (refined : Bool) (outmode dir : List Char) : List GCell → ℕ → Fs → Fs × Py Unit
  | [], _, fs => (fs, .ok ())
  | c :: cs, k, fs =>
    match appCondition e mpr tr c with
    | .error er => (fs, .error er)
    | .ok false => occLoop e mpr tr refined outmode dir cs k fs
    | .ok true =>
      match occWriteOne e refined outmode dir (e.choices k) c fs with
      | .error er => (fs, .error er)
      | .ok fs' => occLoop e mpr tr refined outmode dir cs (k + 1) fs'

/-- `gen_nodup_of_ele` as called by ocubiter (ababe/cmdline/apps/occupybiter.py:76-77); `itertools.combinations` rejects a negative count -/
def biterStructures (e : Ext) (a : OccApp) (g : OGen) : Py (List GCell) :=
  if a.n < 0 then .error .valueError else g.genNodupOfEle e.hash a.ele a.n.toNat a.speckle

/-- `all_speckle_gen_of_ele` as called by ocumaker (ababe/cmdline/apps/occupymaker.py:70-71, 77-79), the levels one after the other -/
def makerStructures (e : Ext) (a : OccApp) (g : OGen) : Py (List GCell) := do
  let ls ← g.allSpeckleOfEle e.hash a.n.toNat a.ele a.speckle
  return ls.flatten

/-- generator, restriction and structures, in the order of the code -/
def occPrepare (e : Ext) (structures : OGen → Py (List GCell)) (cell : GCell) (tr : Option (String × ℚ)) :
    Py (List GCell × Option (Specie × ℚ)) := do
  let g ← OGen.new cell (e.symmetry cell) (e.wyckoffs cell)
  let tr ← parseTr tr
  let cs ← structures g
  return (cs, tr)

/-- `App.run` of ocumaker (ababe/cmdline/apps/occupymaker.py:53-94) and ocubiter (ababe/cmdline/apps/occupybiter.py:59-103). Simplification: the generator is run to the end before the first structure is
written (its exceptions come before the writes instead of between them; C97 shows that it has none once it runs). -/
def occRun (e : Ext) (structures : OccApp → OGen → Py (List GCell)) (a : OccApp) (fs : Fs) : Fs × Py Unit :=
  match openDir fs (structuresDir e a.comment (e.choices 0)) with
  | .error er => (fs, .error er)
  | .ok fs1 =>
    match occPrepare e (structures a) a.cell a.tr with
    | .error er => (fs1, .error er)
    | .ok r => occLoop e a.mpr r.2 a.refined a.outmode (structuresDir e a.comment (e.choices 0)) r.1 1 fs1

/-- the command `ocumaker` (ababe/cmdline/runabalib.py:40-54) -/
def ocumaker (e : Ext) (infile : List Char) (content : FileContent) (o : OccOpts) (fs : Fs) : Fs × Py Unit :=
  match occInit e (fun s => (s : ℤ) - 1) infile content { o with mpr := true } with
  | .error er => (fs, .error er)
  | .ok a => occRun e (makerStructures e) a fs

/-- the command `ocubiter` (ababe/cmdline/runabalib.py:56-72) -/
def ocubiter (e : Ext) (infile : List Char) (content : FileContent) (o : OccOpts) (fs : Fs) : Fs × Py Unit :=
  match occInit e (fun s => ((s / 2 + 1 : ℕ) : ℤ)) infile content o with
  | .error er => (fs, .error er)
  | .ok a => occRun e (biterStructures e) a fs

/-! ### the ternary applications -/

/-- options of `ocutenter` and `ocumakert` -/
structure TerOpts where
  comment : Option (List Char)
  element : Option String
  s1 : String
  s2 : String
  zoom : Option ℚ
  trs : List (String × ℚ)
  refined : Bool
  outmode : List Char
  mpr : Bool

/-- attributes of the application objects of `ocutenter` and `ocumakert`; `size` is the number of target atoms -/
structure TerApp where
  cell : GCell
  comment : List Char
  s1 : String
  s2 : String
  size : ℕ
  tr : Option (String × ℚ)
  refined : Bool
  outmode : List Char
  mpr : Bool

/-- `App.__init__` of ababe/cmdline/apps/occupytenter.py:15-62 and ababe/cmdline/apps/occupymakert.py:15-59, on the settings read from the file -/
def terInit (settings : YDoc) (o : TerOpts) : Py TerApp := do
  let zoom := (o.zoom.or settings.zoom).getD 1
  let comment := (o.comment.or settings.comment).getD "default".toList
  let lat ← need settings.lattice
  let pos ← need settings.positions
  let num ← need settings.numbers
  let cell ← GCell.new (smulM zoom lat) pos num
  let z ← targetZ num o.element
  let _ ← Specie.fromNum z
  return { cell := cell, comment := comment, s1 := o.s1, s2 := o.s2, size := num.count z, tr := o.trs.head?
           refined := o.refined, outmode := o.outmode, mpr := o.mpr }

/-- `tempfile.NamedTemporaryFile(dir=…, prefix=…, suffix=…, delete=False)`: the first candidate, from number `k` on, that does not
exist, in at most `fuel` attempts (`tempfile` makes 10000); its path and the number of the next candidate -/
def tempPath (e : Ext) (fs : Fs) (dir pre suf : List Char) : ℕ → ℕ → Py (List Char × ℕ)
  | 0, _ => .error .osError
  | fuel + 1, k =>
    let p := pathJoin dir (pre ++ e.tempNames k ++ suf)
    if fs.has p then tempPath e fs dir pre suf fuel (k + 1) else .ok (p, k + 1)

/-- `'POSCAR_A{:}B{:}C{:}_'` or `'STRUCTURE_A{:}B{:}C{:}_'`, formatted, and the suffix (ababe/cmdline/apps/occupytenter.py:91-98, ababe/cmdline/apps/occupymakert.py:86-93) -/
def terNames (outmode : List Char) (a b c : ℤ) : List Char × List Char :=
  ((if outmode = "vasp".toList then "POSCAR_A".toList else "STRUCTURE_A".toList) ++ intStr a ++ ['B'] ++ intStr b ++ ['C'] ++ intStr c ++ ['_'],
   if outmode = "vasp".toList then ".vasp".toList else ".yaml".toList)

/-- `Output(c, 1)` (ababe/cmdline/apps/occupytenter.py:115, ababe/cmdline/apps/occupymakert.py:109): the content -/
def terContent (outmode : List Char) (c : GCell) : Py FileContent :=
  if outmode = "vasp".toList then do
    let s ← vaspString c 1 true
    return .text s
  else do
    let d ← yamlDocOld c 1
    return .doc d

/-- the loop over the structures of one composition (ababe/cmdline/apps/occupytenter.py:100-119, ababe/cmdline/apps/occupymakert.py:100-114); `k` is the number of the next candidate name -/
def terLoop (e : Ext) (mpr : Bool) (tr : Option (Specie × ℚ)) (refined : Bool) (outmode dir : List Char) (names : List Char × List Char) :
    List GCell → ℕ → Fs → (ℕ × Fs) × Py Unit
  | [], k, fs => ((k, fs), .ok ())
  | c :: cs, k, fs =>
    match appCondition e mpr tr c with
    | .error er => ((k, fs), .error er)
    | .ok false => terLoop e mpr tr refined outmode dir names cs k fs
    | .ok true =>
      match (do
        let c' ← maybeRefined e refined c
        let content ← terContent outmode c'
        let pk ← tempPath e fs dir names.1 names.2 10000 k
        return (pk, content) : Py ((List Char × ℕ) × FileContent)) with
      | .error er => ((k, fs), .error er)
      | .ok r => terLoop e mpr tr refined outmode dir names cs r.1.2 (fs.write r.1.1 r.2)

/-- the two species and the ternary structures -/
def terStructures (e : Ext) (a : TerApp) (g : OGen) (n1 n2 : ℤ) : Py (List GCell) := do
  let sp1 ← Specie.ofSymbol a.s1
  let sp2 ← Specie.ofSymbol a.s2
  if n1 < 0 ∨ n2 < 0 then .error .valueError else g.genNodupTrinary e.hash sp1 n1.toNat sp2 n2.toNat

/-- the command `ocutenter` after reading the settings (ababe/cmdline/runabalib.py:74-92, ababe/cmdline/apps/occupytenter.py:64-119). Simplification as for `occRun`. -/
def ocutenter (e : Ext) (settings : YDoc) (o : TerOpts) (n1 n2 : ℤ) (fs : Fs) : Fs × Py Unit :=
  match terInit settings o with
  | .error er => (fs, .error er)
  | .ok a =>
    match openDir fs (structuresDir e a.comment (e.choices 0)) with
    | .error er => (fs, .error er)
    | .ok fs1 =>
      match occPrepare e (fun g => terStructures e a g n1 n2) a.cell a.tr with
      | .error er => (fs1, .error er)
      | .ok r =>
        let out := terLoop e a.mpr r.2 a.refined a.outmode (structuresDir e a.comment (e.choices 0))
          (terNames a.outmode ((a.size : ℤ) - n1 - n2) n1 n2) r.1 0 fs1
        (out.1.2, out.2)

/-- the compositions tried by `ocumakert` (ababe/cmdline/apps/occupymakert.py:95-96) -/
def makertPairs (n : ℕ) : List (ℕ × ℕ) :=
  (List.range' 1 (n - 1 - 1)).flatMap fun n1 => (List.range' 1 (n - n1 - 1)).map fun n2 => (n1, n2)

/-- the double loop of `ocumakert` (ababe/cmdline/apps/occupymakert.py:95-114) -/
def makertLoop (e : Ext) (a : TerApp) (g : OGen) (tr : Option (Specie × ℚ)) (dir : List Char) : List (ℕ × ℕ) → ℕ → Fs → Fs × Py Unit
  | [], _, fs => (fs, .ok ())
  | p :: ps, k, fs =>
    match terStructures e a g p.1 p.2 with
    | .error er => (fs, .error er)
    | .ok cs =>
      match terLoop e true tr a.refined a.outmode dir (terNames a.outmode ((a.size : ℤ) - p.1 - p.2) p.1 p.2) cs k fs with
      | (s, .error er) => (s.2, .error er)
      | (s, .ok ()) => makertLoop e a g tr dir ps s.1 s.2

/-- generator and restriction of `ocumakert` (ababe/cmdline/apps/occupymakert.py:79-83) -/
def makertPrepare (e : Ext) (a : TerApp) : Py (OGen × Option (Specie × ℚ)) := do
  let g ← OGen.new a.cell (e.symmetry a.cell) (e.wyckoffs a.cell)
  let tr ← parseTr a.tr
  return (g, tr)

/-- the command `ocumakert` after reading the settings (ababe/cmdline/runabalib.py:94-109, ababe/cmdline/apps/occupymakert.py:61-114) -/
def ocumakert (e : Ext) (settings : YDoc) (o : TerOpts) (fs : Fs) : Fs × Py Unit :=
  match terInit settings o with
  | .error er => (fs, .error er)
  | .ok a =>
    match openDir fs (structuresDir e a.comment (e.choices 0)) with
    | .error er => (fs, .error er)
    | .ok fs1 =>
      match makertPrepare e a with
      | .error er => (fs1, .error er)
      | .ok r => makertLoop e a r.1 r.2 (structuresDir e a.comment (e.choices 0)) (makertPairs a.size) 0 fs1

/-! ### `suplat` -/

/-- attributes of the application object of `suplat` -/
structure SupApp where
  v : ℕ
  comment : List Char
  outmode : List Char
  hnfs : List SLCell

/-- `comment or 'default'` (ababe/cmdline/apps/superlattice.py:21) -/
def commentDefault : Option (List Char) → List Char
  | some (x :: xs) => x :: xs
  | _ => "default".toList

/-- `App.__init__` of ababe/cmdline/apps/superlattice.py:12-30. Simplification: the volume is a natural number. -/
def supInit (e : Ext) (infile : List Char) (content : FileContent) (comment : Option (List Char)) (v : ℕ) (ld : Bool) (outmode : List Char) : Py SupApp := do
  let cell ← readFile e.root content infile none
  if ← cell.isPrimitive e then
    let hnfs ← (if ld then hnfsFromN2D e.setList e.itemFirst cell ((e.symmetry cell).map (·.1)) v
      else hnfsFromN e.setList e.itemFirst cell ((e.symmetry cell).map (·.1)) v)
    return ⟨v, commentDefault comment, outmode, hnfs⟩
  else .error .valueError

/-- emptying or creating the output directory (ababe/cmdline/apps/superlattice.py:37-44) -/
def freshDir (fs : Fs) (dir : List Char) : Py Fs := do
  if fs.has dir then
    let fs' ← fs.rmtree dir
    return fs'.makedirs dir
  else return fs.makedirs dir

/-- `"SUPLAT_{:}_{:}.{:}".format(self.v, rd_suffix, self.outmode)` (ababe/cmdline/apps/superlattice.py:54) -/
def suplatName (v : ℕ) (suffix outmode : List Char) : List Char := "SUPLAT_".toList ++ natStr v ++ ['_'] ++ suffix ++ ['.'] ++ outmode

/-- one superlattice: cell, shaped cell, path, content (ababe/cmdline/apps/superlattice.py:47-56) -/
def supWriteOne (e : Ext) (v : ℕ) (outmode dir suffix : List Char) (s : SLCell) (fs : Fs) : Py Fs := do
  let c ← s.toGeneralCell
  let c ← c.getShapedCell e
  let path := pathJoin dir (suplatName v suffix outmode)
  let content ← writeFile c path none
  return fs.write path content

/-- the loop over the superlattices (ababe/cmdline/apps/superlattice.py:46-56) -/
def supLoop (e : Ext) (v : ℕ) (outmode dir : List Char) : List SLCell → ℕ → Fs → Fs × Py Unit
  | [], _, fs => (fs, .ok ())
  | s :: ss, k, fs =>
    match supWriteOne e v outmode dir (e.choices k) s fs with
    | .error er => (fs, .error er)
    | .ok fs' => supLoop e v outmode dir ss (k + 1) fs'

/-- the command `suplat` (ababe/cmdline/runabalib.py:28-38, ababe/cmdline/apps/superlattice.py:32-56) -/
def suplat (e : Ext) (infile : List Char) (content : FileContent) (comment : Option (List Char)) (v : ℕ) (ld : Bool) (outmode : List Char) (fs : Fs) :
    Fs × Py Unit :=
  match supInit e infile content comment v ld outmode with
  | .error er => (fs, .error er)
  | .ok a =>
    match freshDir fs (pathJoin e.cwd ("SUPLAT_".toList ++ a.comment)) with
    | .error er => (fs, .error er)
    | .ok fs1 => supLoop e a.v a.outmode (pathJoin e.cwd ("SUPLAT_".toList ++ a.comment)) a.hnfs 0 fs1

/-! ### `runati`: commands on a single structure -/

/-- `os.path.basename(p)`: what follows the last slash -/
def basename (p : List Char) : List Char := (p.reverse.takeWhile fun c => c ≠ '/').reverse

/-- `basename.split('.')[0]`: what precedes the first dot -/
def stem (p : List Char) : List Char := (basename p).takeWhile fun c => c ≠ '.'

/-- what a command puts out: the path (`none`: printed) and the content -/
abbrev CmdOut := Option (List Char) × FileContent

/-- the output branch of `supcell` and `pcell` (ababe/cmdline/runatilib.py:63-67, 83-88): `tag` is `SUPC` or `PRIMC`; `click` admits only the
modes `vasp`, `yaml`, `stdio` -/
def cmdOutput (c : GCell) (infile tag outmode : List Char) : Py CmdOut :=
  if outmode = "stdio".toList then do
    let x ← writeFile c [] (some "vasp".toList)
    return (none, x)
  else do
    let path := stem infile ++ ['_'] ++ tag ++ ['.'] ++ outmode
    let x ← writeFile c path none
    return (some path, x)

/-- `supcell` (ababe/cmdline/runatilib.py:43-67) -/
def supcellCmd (e : Ext) (infile : List Char) (content : FileContent) (scale : V3 ℤ) (outmode : List Char) : Py CmdOut := do
  let c ← readFile e.root content infile none
  let sc ← c.supercell ((scale.1, 0, 0), (0, scale.2.1, 0), (0, 0, scale.2.2))
  cmdOutput sc infile "SUPC".toList outmode

/-- `pcell` (ababe/cmdline/runatilib.py:69-88) -/
def pcellCmd (e : Ext) (infile : List Char) (content : FileContent) (outmode : List Char) : Py CmdOut := do
  let c ← readFile e.root content infile none
  let pc ← c.getRefinedPcell e
  cmdOutput pc infile "PRIMC".toList outmode

/-- `App.__init__` of ababe/cmdline/apps/atomclarifier.py:14-22: the ModifiedCell and the two species -/
def atclearInit (e : Ext) (infile : List Char) (content : FileContent) (cenele ele : String) : Py ((World × ℕ) × Specie × Specie) := do
  let c ← readFile e.root content infile none
  let wc ← World.empty.fromGcell c
  let cen ← Specie.ofSymbol cenele
  let el ← Specie.ofSymbol ele
  return (wc, cen, el)

/-- `atclear` (ababe/cmdline/runatilib.py:22-32, ababe/cmdline/apps/atomclarifier.py:24-38): the path and its content; `none`: not finished after `fuel` steps -/
def atclearCmd (e : Ext) (fuel : ℕ) (infile : List Char) (content : FileContent) (cenele : String) (radius : ℚ) (ele : String) (refined : Bool) :
    Option (Py (List Char × FileContent)) :=
  match atclearInit e infile content cenele ele with
  | .error er => some (.error er)
  | .ok i =>
    match verboseClarify fuel i.2.1 radius (some i.2.2) i.1.1 i.1.2 with
    | none => none
    | some w => some do
      let g ← w.toGcell i.1.2
      let g ← maybeRefined e refined g
      let path := stem infile ++ "_ACLR.vasp".toList
      let x ← writeFile g path none
      return (path, x)

/-- the ModifiedCell of `perturb` (ababe/cmdline/apps/atomperturb.py:13-17) -/
def perturbInit (e : Ext) (infile : List Char) (content : FileContent) : Py (World × ℕ) := do
  let c ← readFile e.root content infile none
  World.empty.fromGcell c

/-- `perturb` (ababe/cmdline/runatilib.py:34-41, ababe/cmdline/apps/atomperturb.py:21-32): the path and its content; `rand` are the random vectors, `none`: used up -/
def perturbCmd (e : Ext) (norm : V3 ℚ → ℚ) (rand : List (V3 ℚ)) (infile : List Char) (content : FileContent) (radius : ℚ) :
    Option (Py (List Char × FileContent)) :=
  match perturbInit e infile content with
  | .error er => some (.error er)
  | .ok wc =>
    match wc.1.perturb wc.2 norm radius rand with
    | none => none
    | some (.error er) => some (.error er)
    | some (.ok w) => some do
      let g ← w.toGcell wc.2
      let path := stem infile ++ "_PURB.vasp".toList
      let x ← writeFile g path none
      return (path, x)

end Verif
