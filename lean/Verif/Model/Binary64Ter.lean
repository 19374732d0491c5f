import Verif.Model.Binary64Apps

/-! # `ocutenter` and `ocumakert` in double precision

The ternary applications of `Model/Apps` with the double precision versions of building and sorting cells, of the distance restriction and
of refinement. Their input is not rounded, and their YAML files are written without rounding, so that the writers are those of
`Model/Apps`. -/

namespace Verif

/-- `_gen_dup_trinary_alloy(sp1, n1, sp2, n2)` (ababe/stru/sogen.py:111-127) in double precision -/
def OGen.genDupTrinary64 (g : OGen) (sp1 : Specie) (n1 : ℕ) (sp2 : Specie) (n2 : ℕ) : Py (List GCell) :=
  let origin := List.range g.init.numbers.length
  ((combinations origin n1).flatMap fun c1 =>
    (combinations (origin.filter (fun x => !c1.contains x)) n2).map fun c2 => (c1, c2)).mapM fun cc =>
      GCell.new64 g.init.lattice g.init.positions (zipLongestWrite g.init.numbers sp1.Z sp2.Z cc.1 cc.2)

/-- `gen_nodup_trinary_alloy` (ababe/stru/sogen.py:129-131) in double precision -/
def OGen.genNodupTrinary64 (hash : List ℤ → ℕ) (g : OGen) (sp1 : Specie) (n1 : ℕ) (sp2 : Specie) (n2 : ℕ) :
    Py (List GCell) := do
  g.gen2Nodup hash (← g.genDupTrinary64 sp1 n1 sp2 n2)

/-- `App.__init__` (ababe/cmdline/apps/occupytenter.py:15-62, ababe/cmdline/apps/occupymakert.py:15-59) in double precision -/
def terInit64 (settings : YDoc) (o : TerOpts) : Py TerApp := do
  let zoom := (o.zoom.or settings.zoom).getD 1
  let comment := (o.comment.or settings.comment).getD "default".toList
  let lat ← need settings.lattice
  let pos ← need settings.positions
  let num ← need settings.numbers
  let cell ← GCell.new64 (V3.map (V3.map fun x => fl64 (zoom * x)) lat) pos num
  let z ← targetZ num o.element
  let _ ← Specie.fromNum z
  return { cell := cell, comment := comment, s1 := o.s1, s2 := o.s2, size := num.count z, tr := o.trs.head?
           refined := o.refined, outmode := o.outmode, mpr := o.mpr }

/-- the loop over the structures of one composition (ababe/cmdline/apps/occupytenter.py:100-119, ababe/cmdline/apps/occupymakert.py:100-114) in double precision -/
def terLoop64 (e : Ext) (sq : ℚ → ℚ) (mpr : Bool) (tr : Option (Specie × ℚ)) (refined : Bool) (outmode dir : List Char)
    (names : List Char × List Char) : List GCell → ℕ → Fs → (ℕ × Fs) × Py Unit
  | [], k, fs => ((k, fs), .ok ())
  | c :: cs, k, fs =>
    match appCondition64 e sq mpr tr c with
    | .error er => ((k, fs), .error er)
    | .ok false => terLoop64 e sq mpr tr refined outmode dir names cs k fs
    | .ok true =>
      match (do
        let c' ← maybeRefined64 e refined c
        let content ← terContent outmode c'
        let pk ← tempPath e fs dir names.1 names.2 10000 k
        return (pk, content) : Py ((List Char × ℕ) × FileContent)) with
      | .error er => ((k, fs), .error er)
      | .ok r => terLoop64 e sq mpr tr refined outmode dir names cs r.1.2 (fs.write r.1.1 r.2)

/-- the two species and the ternary structures (ababe/cmdline/apps/occupytenter.py:83-84, ababe/cmdline/apps/occupymakert.py:97-98) in double precision -/
def terStructures64 (e : Ext) (a : TerApp) (g : OGen) (n1 n2 : ℤ) : Py (List GCell) := do
  let sp1 ← Specie.ofSymbol a.s1
  let sp2 ← Specie.ofSymbol a.s2
  if n1 < 0 ∨ n2 < 0 then .error .valueError else g.genNodupTrinary64 e.hash sp1 n1.toNat sp2 n2.toNat

/-- the command `ocutenter` after reading the settings (ababe/cmdline/runabalib.py:74-92, ababe/cmdline/apps/occupytenter.py:64-119) in double precision -/
def ocutenter64 (e : Ext) (sq : ℚ → ℚ) (settings : YDoc) (o : TerOpts) (n1 n2 : ℤ) (fs : Fs) : Fs × Py Unit :=
  match terInit64 settings o with
  | .error er => (fs, .error er)
  | .ok a =>
    match openDir fs (structuresDir e a.comment (e.choices 0)) with
    | .error er => (fs, .error er)
    | .ok fs1 =>
      match occPrepare64 e (fun g => terStructures64 e a g n1 n2) a.cell a.tr with
      | .error er => (fs1, .error er)
      | .ok r =>
        let out := terLoop64 e sq a.mpr r.2 a.refined a.outmode (structuresDir e a.comment (e.choices 0))
          (terNames a.outmode ((a.size : ℤ) - n1 - n2) n1 n2) r.1 0 fs1
        (out.1.2, out.2)

/-- the double loop of `ocumakert` (ababe/cmdline/apps/occupymakert.py:95-114) in double precision -/
def makertLoop64 (e : Ext) (sq : ℚ → ℚ) (a : TerApp) (g : OGen) (tr : Option (Specie × ℚ)) (dir : List Char) :
    List (ℕ × ℕ) → ℕ → Fs → Fs × Py Unit
  | [], _, fs => (fs, .ok ())
  | p :: ps, k, fs =>
    match terStructures64 e a g p.1 p.2 with
    | .error er => (fs, .error er)
    | .ok cs =>
      match terLoop64 e sq true tr a.refined a.outmode dir (terNames a.outmode ((a.size : ℤ) - p.1 - p.2) p.1 p.2) cs k fs with
      | (s, .error er) => (s.2, .error er)
      | (s, .ok ()) => makertLoop64 e sq a g tr dir ps s.1 s.2

/-- generator and restriction of `ocumakert` (ababe/cmdline/apps/occupymakert.py:79-83) in double precision -/
def makertPrepare64 (e : Ext) (a : TerApp) : Py (OGen × Option (Specie × ℚ)) := do
  let g ← OGen.new64 a.cell (e.symmetry a.cell) (e.wyckoffs a.cell)
  let tr ← parseTr a.tr
  return (g, tr)

/-- the command `ocumakert` after reading the settings (ababe/cmdline/runabalib.py:94-109, ababe/cmdline/apps/occupymakert.py:61-114) in double precision -/
def ocumakert64 (e : Ext) (sq : ℚ → ℚ) (settings : YDoc) (o : TerOpts) (fs : Fs) : Fs × Py Unit :=
  match terInit64 settings o with
  | .error er => (fs, .error er)
  | .ok a =>
    match openDir fs (structuresDir e a.comment (e.choices 0)) with
    | .error er => (fs, .error er)
    | .ok fs1 =>
      match makertPrepare64 e a with
      | .error er => (fs1, .error er)
      | .ok r => makertLoop64 e sq a r.1 r.2 (structuresDir e a.comment (e.choices 0)) (makertPairs a.size) 0 fs1

end Verif
