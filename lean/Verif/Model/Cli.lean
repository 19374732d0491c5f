import Verif.Model.Session

/-! # Command lines: `runaba` and `runati`

The decorators of ababe/cmdline/runabalib.py and runatilib.py are tables of options. How `click` reads a command line with such a table is
external code, modelled here from its documentation: options may stand before and after the argument, values may follow a long name after
a blank or after `=`, a short name after a blank or directly, switches may be joined, `--` ends the options, the last setting of an option
counts. Simplification: words are given as the shell passes them on; `inf` and `nan` are not accepted as numbers (see `parseFloat`). -/

namespace Verif

/-- a word of the command line -/
abbrev Word := List Char

/-- what an option does: take `n` values (`nargs`), or set a switch -/
inductive Act
  | take (n : ℕ)
  | set (b : Bool)
  deriving DecidableEq

/-- a line of the table: the parameter of the function, the long names (with dashes), the letters of the short names -/
structure OptDecl where
  dest : String
  longs : List Word
  shorts : List Char
  act : Act
  deriving DecidableEq

/-- a setting found on the command line -/
inductive Occ
  | vals (l : List Word)
  | flag (b : Bool)
  deriving DecidableEq

def findLong (t : List OptDecl) (w : Word) : Option OptDecl := t.find? fun d => d.longs.contains w

def findShort (t : List OptDecl) (c : Char) : Option OptDecl := t.find? fun d => d.shorts.contains c

/-- `arg.split("=", 1)` -/
def splitEq (w : Word) : Word × Option Word :=
  (w.takeWhile (· ≠ '='), match w.dropWhile (· ≠ '=') with | [] => none | _ :: v => some v)

/-- a long option, with the value after `=` if there is one: the setting and the remaining words -/
def useLong (d : OptDecl) (given : Option Word) (rest : List Word) : Option ((String × Occ) × List Word) :=
  match d.act with
  | .take n =>
    let src := given.toList ++ rest
    if src.length < n then none else some ((d.dest, .vals (src.take n)), src.drop n)
  | .set b =>
    match given with
    | some _ => none
    | none => some ((d.dest, .flag b), rest)

/-- the letters after a single dash -/
def useShorts (t : List OptDecl) : List Char → List Word → Option (List (String × Occ) × List Word)
  | [], rest => some ([], rest)
  | c :: cs, rest =>
    match findShort t c with
    | none => none
    | some d =>
      match d.act with
      | .take n =>
        let src := (if cs = [] then [] else [cs]) ++ rest
        if src.length < n then none else some ([(d.dest, .vals (src.take n))], src.drop n)
      | .set b =>
        match useShorts t cs rest with
        | none => none
        | some (os, rest') => some ((d.dest, .flag b) :: os, rest')

/-- a word that starts with a dash and is not a single dash -/
def optWord (w : Word) : Bool :=
  match w with
  | '-' :: _ :: _ => true
  | _ => false

/-- one option word: its settings and the remaining words, `none` for an unknown option or missing values -/
def useWord (t : List OptDecl) (w : Word) (rest : List Word) : Option (List (String × Occ) × List Word) :=
  match findLong t (splitEq w).1 with
  | some d => (useLong d (splitEq w).2 rest).map fun r => ([r.1], r.2)
  | none => if w.take 2 = ['-', '-'] then none else useShorts t (w.drop 1) rest

/-- the settings in order and the other words in order, `none`: rejected. Every step uses up a word, so the number of words plus one is
enough fuel. -/
def parseArgs (t : List OptDecl) : ℕ → List Word → Option (List (String × Occ) × List Word)
  | 0, _ => none
  | _ + 1, [] => some ([], [])
  | k + 1, w :: rest =>
    if w = ['-', '-'] then some ([], rest)
    else if optWord w then
      match useWord t w rest with
      | none => none
      | some (o, rest') =>
        match parseArgs t k rest' with
        | none => none
        | some (os, ps) => some (o ++ os, ps)
    else
      match parseArgs t k rest with
      | none => none
      | some (os, ps) => some (os, w :: ps)

/-! ### Values -/

/-- the last setting of an option -/
def lastOcc (os : List (String × Occ)) (dest : String) : Option Occ :=
  os.foldl (fun m o => if o.1 = dest then some o.2 else m) none

/-- the settings of an option with `multiple=True` -/
def allOcc (os : List (String × Occ)) (dest : String) : List Occ := (os.filter fun o => o.1 = dest).map (·.2)

/-- a switch with its default -/
def switchOpt (os : List (String × Occ)) (dest : String) (dflt : Bool) : Bool :=
  match lastOcc os dest with
  | some (.flag b) => b
  | _ => dflt

/-- an option with one value without conversion -/
def textOpt (os : List (String × Occ)) (dest : String) : Option Word :=
  match lastOcc os dest with
  | some (.vals [w]) => some w
  | _ => none

/-- `type=int`; the outer `none` is a rejected command line -/
def intOpt (os : List (String × Occ)) (dest : String) : Option (Option ℤ) :=
  match textOpt os dest with
  | none => some none
  | some w =>
    match parseInt w with
    | .ok n => some (some n)
    | .error _ => none

/-- `type=float` -/
def floatOpt (os : List (String × Occ)) (dest : String) : Option (Option ℚ) :=
  match textOpt os dest with
  | none => some none
  | some w =>
    match parseFloat w with
    | .ok x => some (some x)
    | .error _ => none

/-- `type=click.Choice([...])` with a default -/
def choiceOpt (os : List (String × Occ)) (dest : String) (choices : List Word) (dflt : Word) : Option Word :=
  match textOpt os dest with
  | none => some dflt
  | some w => if w ∈ choices then some w else none

/-- `nargs=2` -/
def pairOpt (os : List (String × Occ)) (dest : String) : Option (Word × Word) :=
  match lastOcc os dest with
  | some (.vals [a, b]) => some (a, b)
  | _ => none

/-- `nargs=2, type=int` -/
def intPairOpt (os : List (String × Occ)) (dest : String) : Option (Option (ℤ × ℤ)) :=
  match pairOpt os dest with
  | none => some none
  | some (a, b) =>
    match parseInt a, parseInt b with
    | .ok m, .ok n => some (some (m, n))
    | _, _ => none

/-- `nargs=3, type=int` -/
def intTripleOpt (os : List (String × Occ)) (dest : String) : Option (Option (V3 ℤ)) :=
  match lastOcc os dest with
  | some (.vals [a, b, c]) =>
    match parseInt a, parseInt b, parseInt c with
    | .ok x, .ok y, .ok z => some (some (x, y, z))
    | _, _, _ => none
  | _ => some none

/-- `nargs=2, type=click.Tuple([str, float]), multiple=True` -/
def restrictOpt (os : List (String × Occ)) (dest : String) : Option (List (String × ℚ)) :=
  (allOcc os dest).mapM fun o =>
    match o with
    | .vals [s, x] =>
      match parseFloat x with
      | .ok q => some (String.ofList s, q)
      | .error _ => none
    | _ => none

/-! ### `runaba` -/

def vaspYaml : List Word := ["vasp".toList, "yaml".toList]

/-- the option every command has -/
def helpDecl : OptDecl := ⟨"help", ["--help".toList], [], .set true⟩

def commentDecl : OptDecl := ⟨"comment", ["--comment".toList], ['c'], .take 1⟩
def elementDecl : OptDecl := ⟨"element", ["--element".toList], ['e'], .take 1⟩
def restrictDecl : OptDecl := ⟨"trs", ["--dist-restrict".toList], ['r'], .take 2⟩
def refinedDecl : OptDecl := ⟨"refined", ["--refined".toList], [], .set true⟩
def noRefinedDecl : OptDecl := ⟨"refined", ["--no-refined".toList], [], .set false⟩
def moveDecl : OptDecl := ⟨"mpr", ["--move-supercell".toList], ['S'], .set true⟩
def noMoveDecl : OptDecl := ⟨"mpr", ["--no-move-supercell".toList], ['N'], .set false⟩

/-- ababe/cmdline/runabalib.py:28-33 -/
def suplatTable : List OptDecl :=
  [helpDecl, commentDecl, ⟨"volumn", ["--volumn".toList], ['v'], .take 1⟩, ⟨"ld", ["--ld".toList], ['L'], .set true⟩,
   ⟨"ld", ["--no-ld".toList], [], .set false⟩, ⟨"outmode", ["--outmode".toList], ['o'], .take 1⟩]

/-- ababe/cmdline/runabalib.py:40-48 -/
def ocumakerTable : List OptDecl :=
  [helpDecl, commentDecl, elementDecl, ⟨"speckle", ["--speckle".toList], ['s'], .take 1⟩,
   ⟨"nspeckle", ["--number-speckle".toList], ['n'], .take 1⟩, restrictDecl, refinedDecl, noRefinedDecl,
   ⟨"outmode", ["--outmode".toList], ['o'], .take 1⟩]

/-- ababe/cmdline/runabalib.py:56-66 -/
def ocubiterTable : List OptDecl := ocumakerTable ++ [moveDecl, noMoveDecl]

/-- ababe/cmdline/runabalib.py:94-102 -/
def ocumakertTable : List OptDecl :=
  [helpDecl, ⟨"comment", ["--comment".toList], [], .take 1⟩, ⟨"element", ["--element".toList], [], .take 1⟩,
   ⟨"speckle", ["--speckle".toList], [], .take 2⟩, ⟨"zoom", ["--zoom".toList], [], .take 1⟩, restrictDecl, refinedDecl, noRefinedDecl,
   ⟨"outmode", ["--outmode".toList], [], .take 1⟩]

/-- ababe/cmdline/runabalib.py:74-85 -/
def ocutenterTable : List OptDecl :=
  ocumakertTable ++ [⟨"nspeckle", ["--number-speckle".toList], ['n'], .take 2⟩, moveDecl, noMoveDecl]

/-- the arguments of `ocutenter` and `ocumakert`; the two `nargs=2` options have no default -/
structure TerArgs where
  comment : Option (List Char)
  element : Option String
  speckle : Option (String × String)
  nspeckle : Option (ℤ × ℤ)
  zoom : Option ℚ
  trs : List (String × ℚ)
  refined : Bool
  outmode : List Char
  mpr : Bool

/-- a call of one of the five functions, without the input file -/
inductive AbaCall
  | suplat (comment : Option (List Char)) (volumn : ℤ) (ld : Bool) (outmode : List Char)
  | ocumaker (o : OccOpts)
  | ocubiter (o : OccOpts)
  | ocutenter (o : TerArgs)
  | ocumakert (o : TerArgs)

/-- ababe/cmdline/runabalib.py:28-38 -/
def suplatCall (os : List (String × Occ)) : Option AbaCall :=
  match intOpt os "volumn", choiceOpt os "outmode" vaspYaml "yaml".toList with
  | some v, some m => some (.suplat (textOpt os "comment") (v.getD 1) (switchOpt os "ld" false) m)
  | _, _ => none

/-- ababe/cmdline/runabalib.py:40-53, 56-71 -/
def occOpts (os : List (String × Occ)) : Option OccOpts :=
  match intOpt os "nspeckle", restrictOpt os "trs", choiceOpt os "outmode" vaspYaml "vasp".toList with
  | some n, some r, some m => some
      { comment := textOpt os "comment", element := (textOpt os "element").map String.ofList, speckle := (textOpt os "speckle").map String.ofList
        nspeckle := n, trs := r, refined := switchOpt os "refined" true, outmode := m, mpr := switchOpt os "mpr" true }
  | _, _, _ => none

/-- ababe/cmdline/runabalib.py:72-91, 94-108 -/
def terArgs (os : List (String × Occ)) : Option TerArgs :=
  match intPairOpt os "nspeckle", floatOpt os "zoom", restrictOpt os "trs", choiceOpt os "outmode" vaspYaml "vasp".toList with
  | some n, some z, some r, some m => some
      { comment := textOpt os "comment", element := (textOpt os "element").map String.ofList
        speckle := (pairOpt os "speckle").map fun p => (String.ofList p.1, String.ofList p.2)
        nspeckle := n, zoom := z, trs := r, refined := switchOpt os "refined" true, outmode := m, mpr := switchOpt os "mpr" true }
  | _, _, _, _ => none

/-- the commands of the group `runaba` (ababe/cmdline/runabalib.py:28-109): table and meaning -/
def abaCommand (name : Word) : Option (List OptDecl × (List (String × Occ) → Option AbaCall)) :=
  if name = "suplat".toList then some (suplatTable, suplatCall)
  else if name = "ocumaker".toList then some (ocumakerTable, fun os => (occOpts os).map .ocumaker)
  else if name = "ocubiter".toList then some (ocubiterTable, fun os => (occOpts os).map .ocubiter)
  else if name = "ocutenter".toList then some (ocutenterTable, fun os => (terArgs os).map .ocutenter)
  else if name = "ocumakert".toList then some (ocumakertTable, fun os => (terArgs os).map .ocumakert)
  else none

/-- what a command line says: it is rejected (`usage`), asks for a text (`info`: help, version), or calls a function on an input path -/
inductive Said (α : Type)
  | usage
  | info
  | call (infile : Word) (c : α)

/-- a command after its name: parsing errors first, then `--help`, then the values and the argument (`click` checks the values in an
order that makes no difference: all these errors end with a usage message) -/
def readCommand {α} (table : List OptDecl) (meaning : List (String × Occ) → Option α) (words : List Word) : Said α :=
  match parseArgs table (words.length + 1) words with
  | none => .usage
  | some (os, ps) =>
    if switchOpt os "help" false then .info
    else
      match meaning os, ps with
      | some c, [p] => .call p c
      | _, _ => .usage

/-- the group (ababe/cmdline/runabalib.py:17-20, ababe/cmdline/runatilib.py:17-20): its own options come before the name of the command; without any word
the help is shown. `seen`: `--help` or `--version` was met. -/
def readGroup {α} (command : Word → Option (List Word → Said α)) : Bool → List Word → Said α
  | seen, [] => if seen then .info else .usage
  | seen, w :: rest =>
    if w = ['-', '-'] then
      match rest with
      | [] => if seen then .info else .usage
      | name :: words => if seen then .info else match command name with | none => .usage | some f => f words
    else if optWord w then
      if w = "--help".toList ∨ w = "--version".toList then readGroup command true rest else .usage
    else if seen then .info else match command w with | none => .usage | some f => f rest

/-- `runaba words` up to the call of the function -/
def readAba (words : List Word) : Said AbaCall :=
  if words = [] then .info
  else readGroup (fun name => (abaCommand name).map fun c => readCommand c.1 c.2) false words

/-- what the applications depend on beside `Ext`: the exception raised when an `nargs=2` option without default is unpacked although it was
not given (TypeError or ValueError, with the version of click), and PyYAML on a text that is not one of the mappings of the model -/
structure CliEnv where
  missing : PyErr
  loadText : List Char → Py YDoc

/-- `yaml.load(open(infile, "r"))` (ababe/cmdline/runabalib.py:87-88, 104-105) -/
def loadSettings (env : CliEnv) : FileContent → Py YDoc
  | .doc d => .ok d
  | .text s => env.loadText s

/-- the part of `App.__init__` before `speckle` is unpacked (ababe/cmdline/apps/occupytenter.py:15-45, ababe/cmdline/apps/occupymakert.py:15-46) -/
def terBefore (settings : YDoc) (zoom : Option ℚ) (element : Option String) : Py Unit := do
  let lat ← need settings.lattice
  let pos ← need settings.positions
  let num ← need settings.numbers
  let _ ← GCell.new (smulM ((zoom.or settings.zoom).getD 1) lat) pos num
  let _ ← targetZ num element
  return ()

/-- the options of the application from the arguments, when `speckle` was given -/
def TerArgs.opts (a : TerArgs) (s : String × String) : TerOpts :=
  ⟨a.comment, a.element, s.1, s.2, a.zoom, a.trs, a.refined, a.outmode, a.mpr⟩

/-- an application that cannot be set up because a pair is missing -/
def terMissing (env : CliEnv) (settings : YDoc) (a : TerArgs) : PyErr :=
  match terBefore settings a.zoom a.element with
  | .error er => er
  | .ok () => env.missing

/-- the functions (ababe/cmdline/runabalib.py:34-109) on the content of the input file. A volume below zero fails like the volume zero: the
square root is complex (ababe/stru/grid.py:100-102). -/
def AbaCall.onContent (e : Ext) (env : CliEnv) (infile : Word) (content : FileContent) (fs : Fs) : AbaCall → Fs × Py Unit
  | .suplat c v ld m => Verif.suplat e infile content c v.toNat ld m fs
  | .ocumaker o => Verif.ocumaker e infile content o fs
  | .ocubiter o => Verif.ocubiter e infile content o fs
  | .ocutenter a =>
    match loadSettings env content with
    | .error er => (fs, .error er)
    | .ok y =>
      match a.speckle, a.nspeckle with
      | some s, some n => Verif.ocutenter e y (a.opts s) n.1 n.2 fs
      | _, _ => (fs, .error (terMissing env y a))
  | .ocumakert a =>
    match loadSettings env content with
    | .error er => (fs, .error er)
    | .ok y =>
      match a.speckle with
      | some s => Verif.ocumakert e y (a.opts s) fs
      | none => (fs, .error (terMissing env y a))

/-- how the program ends -/
inductive Ended
  | usage
  | info
  | raised (e : PyErr)
  | done
  deriving DecidableEq

/-- a directory as input passes `click.Path(exists=True)`; `GeneralIO.from_file` fails when it chooses the format or opens it,
`open(infile)` of the ternary commands fails at once -/
def AbaCall.onDirectory (infile : Word) : AbaCall → PyErr
  | .ocutenter _ => .osError
  | .ocumakert _ => .osError
  | _ =>
    match dispatch infile none with
    | .error er => er
    | .ok _ => .osError

/-- `runaba words` (ababe/cmdline/runabalib.py:9-15) -/
def runaba (e : Ext) (env : CliEnv) (words : List Word) (fs : Fs) : Fs × Ended :=
  match readAba words with
  | .usage => (fs, .usage)
  | .info => (fs, .info)
  | .call p c =>
    if fs.has p then
      match dictGet fs.files p with
      | none => (fs, .raised (c.onDirectory p))
      | some content =>
        match c.onContent e env p content fs with
        | (fs', .ok ()) => (fs', .done)
        | (fs', .error er) => (fs', .raised er)
    else (fs, .usage)

/-! ### `runati` -/

/-- ababe/cmdline/runatilib.py:22-27 -/
def atclearTable : List OptDecl :=
  [helpDecl, ⟨"cenele", ["--center-element".toList], ['c'], .take 1⟩, ⟨"radius", ["--radius".toList], ['r'], .take 1⟩,
   ⟨"ele", ["--element-remove".toList], ['e'], .take 1⟩, refinedDecl, noRefinedDecl]

/-- ababe/cmdline/runatilib.py:34-36 -/
def perturbTable : List OptDecl := [helpDecl, ⟨"radius", ["--radius".toList], ['r'], .take 1⟩]

/-- ababe/cmdline/runatilib.py:43-46 -/
def supcellTable : List OptDecl :=
  [helpDecl, ⟨"scale", ["--scale".toList], ['s'], .take 3⟩, ⟨"outmode", ["--outmode".toList], [], .take 1⟩]

/-- ababe/cmdline/runatilib.py:69-71 -/
def pcellTable : List OptDecl := [helpDecl, ⟨"outmode", ["--outmode".toList], [], .take 1⟩]

/-- a call of one of the four functions, without the input file; `supcell` without `--scale` is a call, too -/
inductive AtiCall
  | atclear (cenele : String) (radius : ℚ) (ele : String) (refined : Bool)
  | perturb (radius : ℚ)
  | supcell (scale : Option (V3 ℤ)) (outmode : OutMode)
  | pcell (outmode : OutMode)

/-- `type=click.Choice(['vasp', 'yaml', 'stdio']), default='stdio'` (ababe/cmdline/runatilib.py:46, 70) -/
def outModeOpt (os : List (String × Occ)) : Option OutMode :=
  match textOpt os "outmode" with
  | none => some .stdio
  | some w =>
    if w = "vasp".toList then some .vasp else if w = "yaml".toList then some .yaml else if w = "stdio".toList then some .stdio else none

/-- the commands of the group `runati` (ababe/cmdline/runatilib.py:22-88); `cenele` and `ele` are required -/
def atiCommand (name : Word) : Option (List OptDecl × (List (String × Occ) → Option AtiCall)) :=
  if name = "atclear".toList then some (atclearTable, fun os =>
    match textOpt os "cenele", floatOpt os "radius", textOpt os "ele" with
    | some c, some r, some el => some (.atclear (String.ofList c) (r.getD 0) (String.ofList el) (switchOpt os "refined" true))
    | _, _, _ => none)
  else if name = "perturb".toList then some (perturbTable, fun os => (floatOpt os "radius").map fun r => .perturb (r.getD 0))
  else if name = "supcell".toList then some (supcellTable, fun os =>
    match intTripleOpt os "scale", outModeOpt os with
    | some s, some m => some (.supcell s m)
    | _, _ => none)
  else if name = "pcell".toList then some (pcellTable, fun os => (outModeOpt os).map .pcell)
  else none

/-- `runati words` up to the call of the function -/
def readAti (words : List Word) : Said AtiCall :=
  if words = [] then .info
  else readGroup (fun name => (atiCommand name).map fun c => readCommand c.1 c.2) false words

/-- the command of `Model/Session` for a call; `supcell` without a scale has none: `np.diag` or the product of the matrices raises ValueError
after the file was read (ababe/cmdline/runatilib.py:55-58) -/
def AtiCall.cmd (rand : List (V3 ℚ)) (p : Word) : AtiCall → Option AtiCmd
  | .atclear c r el b => some (.atclear p c r el b)
  | .perturb r => some (.perturb p r rand)
  | .supcell (some s) m => some (.supcell p s m)
  | .supcell none _ => none
  | .pcell m => some (.pcell p m)

/-- `supcell` without a scale: the file is read, then the ValueError -/
def supcellNoScale (e : Ext) (p : Word) (fs : Fs) : Outcome :=
  if fs.has p then
    match dispatch p none with
    | .error er => .raised er
    | .ok _ =>
      match dictGet fs.files p with
      | none => .raised .osError
      | some content =>
        match readFile e.root content p none with
        | .error er => .raised er
        | .ok _ => .raised .valueError
  else .usage

/-- `runati words` (ababe/cmdline/runatilib.py:9-15); the outcome `none` is a printed help or version text -/
def runati (e : Ext) (fuel : ℕ) (norm : V3 ℚ → ℚ) (rand : List (V3 ℚ)) (words : List Word) (fs : Fs) : Fs × Option Outcome :=
  match readAti words with
  | .usage => (fs, some .usage)
  | .info => (fs, none)
  | .call p c =>
    match c.cmd rand p with
    | some cmd => ((cmd.step e fuel norm fs).1, some (cmd.step e fuel norm fs).2)
    | none => (fs, some (supcellNoScale e p fs))

end Verif
