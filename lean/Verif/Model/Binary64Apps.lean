import Verif.Model.Apps
import Verif.Model.Binary64Io
import Verif.Model.Binary64Dist

/-! # `ocumaker` and `ocubiter` in double precision

`Model/Apps` runs the applications with exact numbers. Here the same programs with the double precision versions of reading
(`Model/Binary64Io`), of building and sorting cells (`Model/Binary64`), of the distance restriction (`Model/Binary64Dist`) and of writing,
so that the two runs can be compared (C130). `sq` is the square root of the C library and `factor` the computed scale for a negative scale
factor. -/

namespace Verif

/-- `GeneralIO.from_file(fname, fmt)` (ababe/io/io.py:33-45) in double precision -/
def readFile64 (factor : ℚ → M3 ℚ → ℚ) (content : FileContent) (fname : List Char) (fmt : Option (List Char)) : Py GCell := do
  match ← dispatch fname fmt, content with
  | .yaml, .doc d => yamlReadCell64 d
  | .vasp, .text s => vaspReadCell64 factor s
  | _, _ => .error .valueError

/-- `GeneralIO(gcell).write_file(fname, fmt)` (ababe/io/io.py:17-31) in double precision -/
def writeFile64 (c : GCell) (fname : List Char) (fmt : Option (List Char)) : Py FileContent := do
  match ← dispatch fname fmt with
  | .yaml => let d ← yamlDoc64 c; return .doc d
  | .vasp => let s ← vaspString c 1 true; return .text s

/-- `gen_dup_of_ele(ele, n, sp)` (ababe/stru/sogen.py:93-105) in double precision -/
def OGen.genDupOfEle64 (g : OGen) (ele : Specie) (n : ℕ) (sp : Specie) : Py (List GCell) :=
  (combinations (eleIndices g.init.numbers ele.Z) n).mapM fun comb =>
    GCell.new64 g.init.lattice g.init.positions (overwrite g.init.numbers comb sp.Z)

/-- `gen_nodup_of_ele` (ababe/stru/sogen.py:107-109) in double precision -/
def OGen.genNodupOfEle64 (hash : List ℤ → ℕ) (g : OGen) (ele : Specie) (n : ℕ) (sp : Specie) : Py (List GCell) := do
  g.gen2Nodup hash (← g.genDupOfEle64 ele n sp)

/-- the loop of `gen_add_one_speckle_of_ele` over the candidates of one cell (ababe/stru/sogen.py:174-182) in double precision -/
def addOneInner64 (hash : List ℤ → ℕ) (c : GCell) : List (List ℤ) → List ℕ → Py (List GCell × List ℕ)
  | [], db => .ok ([], db)
  | nn :: rest, db =>
    if hash nn ∈ db then addOneInner64 hash c rest db
    else do
      let cell ← GCell.new64 c.lattice c.positions nn
      let r ← addOneInner64 hash c rest (hash nn :: db)
      return (cell :: r.1, r.2)

/-- the outer loop of `gen_add_one_speckle_of_ele` (ababe/stru/sogen.py:171-182) in double precision -/
def addOneLoop64 (hash : List ℤ → ℕ) (ok : ℕ → ℤ → Bool) (atom : ℤ) : List GCell → List ℕ → Py (List GCell)
  | [], _ => .ok []
  | c :: cs, db => do
    let r ← addOneInner64 hash c (addOneCands ok atom c.numbers) db
    let rest ← addOneLoop64 hash ok atom cs r.2
    return r.1 ++ rest

/-- `all_speckle_gen_of_ele(n, ele, sp)` (ababe/stru/sogen.py:168-182, 232-242) in double precision -/
def OGen.allSpeckleOfEle64 (hash : List ℤ → ℕ) (g : OGen) (n : ℕ) (ele sp : Specie) : Py (List (List GCell)) :=
  levels (fun gen => do g.gen2Nodup hash (← addOneLoop64 hash (fun _ v => v == ele.Z && v != sp.Z) sp.Z gen []))
    (n - g.init.getSpeckleNum sp) [g.init]

/-- `get_refined_pcell()` (ababe/stru/scaffold.py:390-402) in double precision -/
def GCell.getRefinedPcell64 (e : Ext) (c : GCell) : Py GCell :=
  match e.standardize (c.lattice, c.positions, c.numbers) with
  | none => .error .typeError
  | some p => GCell.new64 p.1 p.2.1 p.2.2

/-- `if self.refined: c = c.get_refined_pcell()` (ababe/cmdline/apps/occupymaker.py:86-87, ababe/cmdline/apps/occupybiter.py:96-97) in double precision -/
def maybeRefined64 (e : Ext) (refined : Bool) (c : GCell) : Py GCell := if refined then c.getRefinedPcell64 e else .ok c

/-- the condition computed for every structure (ababe/cmdline/apps/occupybiter.py:84-93, ababe/cmdline/apps/occupymaker.py:80-83) in double precision -/
def appCondition64 (e : Ext) (sq : ℚ → ℚ) (mpr : Bool) (tr : Option (Specie × ℚ)) (c : GCell) : Py Bool :=
  match mpr, tr with
  | true, some t => do
    if ← c.isPrimitive e then minDistSatisfied64 sq t.1 t.2 c else return false
  | true, none => c.isPrimitive e
  | false, some t => minDistSatisfied64 sq t.1 t.2 c
  | false, none => .ok true

/-- refining, naming and writing one structure (ababe/cmdline/apps/occupymaker.py:86-94, ababe/cmdline/apps/occupybiter.py:96-103) in double precision -/
def occWriteOne64 (e : Ext) (refined : Bool) (outmode dir suffix : List Char) (c : GCell) (fs : Fs) : Py Fs := do
  let c ← maybeRefined64 e refined c
  let comment ← c.comment
  let path := pathJoin dir (structureName comment suffix outmode)
  let content ← writeFile64 c path none
  return fs.write path content

/-- the loop over the structures (ababe/cmdline/apps/occupymaker.py:77-94, ababe/cmdline/apps/occupybiter.py:83-103) in double precision -/
def occLoop64 (e : Ext) (sq : ℚ → ℚ) (mpr : Bool) (tr : Option (Specie × ℚ)) (refined : Bool) (outmode dir : List Char) :
    List GCell → ℕ → Fs → Fs × Py Unit
  | [], _, fs => (fs, .ok ())
  | c :: cs, k, fs =>
    match appCondition64 e sq mpr tr c with
    | .error er => (fs, .error er)
    | .ok false => occLoop64 e sq mpr tr refined outmode dir cs k fs
    | .ok true =>
      match occWriteOne64 e refined outmode dir (e.choices k) c fs with
      | .error er => (fs, .error er)
      | .ok fs' => occLoop64 e sq mpr tr refined outmode dir cs (k + 1) fs'

/-- `App.__init__` (ababe/cmdline/apps/occupymaker.py:15-51, ababe/cmdline/apps/occupybiter.py:15-57) in double precision -/
def occInit64 (factor : ℚ → M3 ℚ → ℚ) (dflt : ℕ → ℤ) (infile : List Char) (content : FileContent) (o : OccOpts) : Py OccApp := do
  let cell ← readFile64 factor content infile none
  let comment ← commentOr o.comment cell
  let z ← targetZ cell.numbers o.element
  let speckle ← (match o.speckle with | none => Specie.ofSymbol "G" | some s => Specie.ofSymbol s)
  let ele ← Specie.fromNum z
  return { cell := cell, comment := comment, ele := ele, speckle := speckle
           n := (match o.nspeckle with | none => dflt (cell.numbers.count z) | some n => n)
           tr := o.trs.head?, refined := o.refined, outmode := o.outmode, mpr := o.mpr }

/-- `gen_nodup_of_ele` as called by ocubiter (ababe/cmdline/apps/occupybiter.py:76-77) in double precision -/
def biterStructures64 (e : Ext) (a : OccApp) (g : OGen) : Py (List GCell) :=
  if a.n < 0 then .error .valueError else g.genNodupOfEle64 e.hash a.ele a.n.toNat a.speckle

/-- `all_speckle_gen_of_ele` as called by ocumaker (ababe/cmdline/apps/occupymaker.py:70-71, 77-79) in double precision -/
def makerStructures64 (e : Ext) (a : OccApp) (g : OGen) : Py (List GCell) := do
  let ls ← g.allSpeckleOfEle64 e.hash a.n.toNat a.ele a.speckle
  return ls.flatten

/-- generator, restriction and structures in double precision (ababe/cmdline/apps/occupymaker.py:70-79, ababe/cmdline/apps/occupybiter.py:76-81) -/
def occPrepare64 (e : Ext) (structures : OGen → Py (List GCell)) (cell : GCell) (tr : Option (String × ℚ)) :
    Py (List GCell × Option (Specie × ℚ)) := do
  let g ← OGen.new64 cell (e.symmetry cell) (e.wyckoffs cell)
  let tr ← parseTr tr
  let cs ← structures g
  return (cs, tr)

/-- `App.run` of ocumaker (ababe/cmdline/apps/occupymaker.py:53-94) and ocubiter (ababe/cmdline/apps/occupybiter.py:59-103) in double precision -/
def occRun64 (e : Ext) (sq : ℚ → ℚ) (structures : OccApp → OGen → Py (List GCell)) (a : OccApp) (fs : Fs) : Fs × Py Unit :=
  match openDir fs (structuresDir e a.comment (e.choices 0)) with
  | .error er => (fs, .error er)
  | .ok fs1 =>
    match occPrepare64 e (structures a) a.cell a.tr with
    | .error er => (fs1, .error er)
    | .ok r => occLoop64 e sq a.mpr r.2 a.refined a.outmode (structuresDir e a.comment (e.choices 0)) r.1 1 fs1

/-- the command `ocumaker` (ababe/cmdline/runabalib.py:40-54) in double precision -/
def ocumaker64 (e : Ext) (sq : ℚ → ℚ) (factor : ℚ → M3 ℚ → ℚ) (infile : List Char) (content : FileContent) (o : OccOpts) (fs : Fs) :
    Fs × Py Unit :=
  match occInit64 factor (fun s => (s : ℤ) - 1) infile content { o with mpr := true } with
  | .error er => (fs, .error er)
  | .ok a => occRun64 e sq (makerStructures64 e) a fs

/-- the command `ocubiter` (ababe/cmdline/runabalib.py:56-72) in double precision -/
def ocubiter64 (e : Ext) (sq : ℚ → ℚ) (factor : ℚ → M3 ℚ → ℚ) (infile : List Char) (content : FileContent) (o : OccOpts) (fs : Fs) :
    Fs × Py Unit :=
  match occInit64 factor (fun s => ((s / 2 + 1 : ℕ) : ℤ)) infile content o with
  | .error er => (fs, .error er)
  | .ok a => occRun64 e sq (biterStructures64 e) a fs

end Verif
