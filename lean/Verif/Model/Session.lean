import Verif.Model.Apps
import Verif.Model.Writers

/-! # `runati` commands on a file system

`Model/Apps` gives the output of the commands as a value. Here the commands read and write a file system, one after the other (C111). Paths
are taken as they are given: `a` and `./a` are different names. -/

namespace Verif

/-- the choices of `--outmode` (ababe/cmdline/runatilib.py:47, 71) -/
inductive OutMode
  | vasp | yaml | stdio
  deriving DecidableEq

/-- the word on the command line -/
def OutMode.word : OutMode → List Char
  | .vasp => "vasp".toList
  | .yaml => "yaml".toList
  | .stdio => "stdio".toList

/-- a command with its arguments (ababe/cmdline/runatilib.py:22-88). `rand` are the random vectors `perturb` will meet. -/
inductive AtiCmd
  | atclear (infile : List Char) (cenele : String) (radius : ℚ) (ele : String) (refined : Bool)
  | perturb (infile : List Char) (radius : ℚ) (rand : List (V3 ℚ))
  | supcell (infile : List Char) (scale : V3 ℤ) (outmode : OutMode)
  | pcell (infile : List Char) (outmode : OutMode)

/-- the argument `input` -/
def AtiCmd.infile : AtiCmd → List Char
  | .atclear p _ _ _ _ => p
  | .perturb p _ _ => p
  | .supcell p _ _ => p
  | .pcell p _ => p

/-- how a command ends: rejected by `click` because the input does not exist, with an exception, with a printed text, with a written file, or
not at all -/
inductive Outcome
  | usage
  | raised (e : PyErr)
  | printed (x : FileContent)
  | wrote (p : List Char) (x : FileContent)
  | running

/-- what the command puts out when the input file has this content (ababe/cmdline/runatilib.py:22-88, see `Model/Apps`) -/
def AtiCmd.output (e : Ext) (fuel : ℕ) (norm : V3 ℚ → ℚ) (content : FileContent) : AtiCmd → Option (Py CmdOut)
  | .atclear p cen r ele refined => (atclearCmd e fuel p content cen r ele refined).map fun x => x.map fun y => (some y.1, y.2)
  | .perturb p r rand => (perturbCmd e norm rand p content r).map fun x => x.map fun y => (some y.1, y.2)
  | .supcell p scale m => some (supcellCmd e p content scale m.word)
  | .pcell p m => some (pcellCmd e p content m.word)

/-- one command: `click.Path(exists=True)`, `GeneralIO.from_file` on the input (a directory is an OSError, once a format is recognised), then
`GeneralIO.write_file` on the output, which fails for a directory (ababe/cmdline/runatilib.py:22-88, ababe/io/io.py:18-45) -/
def AtiCmd.step (e : Ext) (fuel : ℕ) (norm : V3 ℚ → ℚ) (c : AtiCmd) (fs : Fs) : Fs × Outcome :=
  if fs.has c.infile then
    match dictGet fs.files c.infile with
    | none =>
      match dispatch c.infile none with
      | .error er => (fs, .raised er)
      | .ok _ => (fs, .raised .osError)
    | some content =>
      match c.output e fuel norm content with
      | none => (fs, .running)
      | some (.error er) => (fs, .raised er)
      | some (.ok (none, x)) => (fs, .printed x)
      | some (.ok (some p, x)) => if p ∈ fs.dirs then (fs, .raised .osError) else (fs.write p x, .wrote p x)
  else (fs, .usage)

/-- commands one after the other; a command that does not end is interrupted -/
def runAti (e : Ext) (fuel : ℕ) (norm : V3 ℚ → ℚ) : List AtiCmd → Fs → Fs × List Outcome
  | [], fs => (fs, [])
  | c :: cs, fs =>
    let r := c.step e fuel norm fs
    let s := runAti e fuel norm cs r.1
    (s.1, r.2 :: s.2)

end Verif
