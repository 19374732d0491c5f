import Verif.Model.Cli

/-! # Both programs on one file system

A session of command lines of `runaba` and `runati` (C114). As in `Model/Session` paths are taken as they are given. -/

namespace Verif

/-- one line typed at the prompt (entry points `runaba` and `runati`, setup.py:26-30; ababe/cmdline/runabalib.py:9-15,
ababe/cmdline/runatilib.py:9-15). The surroundings belong to the line: random letters, temporary names, random vectors and the working directory may
differ from line to line. -/
structure Invocation where
  e : Ext
  env : CliEnv
  fuel : ℕ
  norm : V3 ℚ → ℚ
  rand : List (V3 ℚ)
  /-- `runaba`, otherwise `runati` -/
  aba : Bool
  words : List Word

/-- the file system the line leaves behind, however it ends -/
def Invocation.after (i : Invocation) (fs : Fs) : Fs :=
  if i.aba then (runaba i.e i.env i.words fs).1 else (runati i.e i.fuel i.norm i.rand i.words fs).1

/-- the lines one after the other; a line that fails does not keep the next one from being typed -/
def shellRun : List Invocation → Fs → Fs
  | [], fs => fs
  | i :: is, fs => shellRun is (i.after fs)

end Verif
