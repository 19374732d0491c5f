import Mathlib.Data.Rat.Defs

/-! # Vocabulary: reading command lines

The grammar of a command line for a table of options, as the documentation of such programs describes it, without any algorithm. -/

namespace Spec

/-- A word that is not an option: it does not start with a dash, or it is a single dash. -/
def Plain (w : List Char) : Prop := (∀ t, w ≠ '-' :: t) ∨ w = ['-']

/-- The ways to spell one setting: the long name followed by the values; the long name, `=` and the first value; the short name followed
by the values; the short name with the first value attached. A switch has no values. -/
def Spells (long : List Char) (short : Option Char) (values ws : List (List Char)) : Prop :=
  ws = long :: values ∨ (∃ v vs, values = v :: vs ∧ ws = (long ++ '=' :: v) :: vs) ∨
    ∃ c, short = some c ∧ (ws = ['-', c] :: values ∨ ∃ v vs, values = v :: vs ∧ v ≠ [] ∧ ws = ('-' :: c :: v) :: vs)

/-- `Line spells tail ss ps words`: the words spell the settings `ss`, in this order, with the plain words `ps` anywhere between them, up to
the rest `tail`. The letter of a switch may be joined with the short options that follow. -/
inductive Line {S : Type} (spells : S → List (List Char) → Prop) (tail : List (List Char)) :
    List S → List (List Char) → List (List Char) → Prop
  | done : Line spells tail [] [] tail
  | word {ss ps l} (w) : Plain w → Line spells tail ss ps l → Line spells tail ss (w :: ps) (w :: l)
  | setting {ss ps l} (s ws) : spells s ws → Line spells tail ss ps l → Line spells tail (s :: ss) ps (ws ++ l)
  | joined {ss ps l} (s c r) : spells s [['-', c]] → r ≠ [] → (∀ t, r ≠ '-' :: t) → Line spells tail ss ps (('-' :: r) :: l) →
      Line spells tail (s :: ss) ps (('-' :: c :: r) :: l)

/-- the rest of a line after its last setting: nothing, or `--` and further plain words -/
inductive Tail : List (List Char) → List (List Char) → Prop
  | nil : Tail [] []
  | stop (qs) : Tail qs (['-', '-'] :: qs)

/-- a word that names no option: a long name not in `longs`, or a letter not in `shorts` -/
def Unknown (longs : List (List Char)) (shorts : List Char) (w : List Char) : Prop :=
  (∃ n r, w = '-' :: '-' :: n ++ r ∧ n ≠ [] ∧ '=' ∉ n ∧ '-' :: '-' :: n ∉ longs ∧ (r = [] ∨ ∃ v, r = '=' :: v)) ∨
    ∃ c r, w = '-' :: c :: r ∧ c ≠ '-' ∧ c ∉ shorts

/-! ### The settings of the commands, with their names -/

/-- a setting of `ocumaker` and `ocubiter`; numbers are given with the word that spells them -/
inductive OccSet
  | comment (w : List Char)
  | element (w : List Char)
  | speckle (w : List Char)
  | number (w : List Char) (n : ℤ)
  | restrict (w x : List Char) (d : ℚ)
  | refined (b : Bool)
  | outmode (w : List Char)
  | move (b : Bool)

/-- the documented names and the values of a setting -/
def OccSet.names : OccSet → List Char × Option Char × List (List Char)
  | .comment w => ("--comment".toList, some 'c', [w])
  | .element w => ("--element".toList, some 'e', [w])
  | .speckle w => ("--speckle".toList, some 's', [w])
  | .number w _ => ("--number-speckle".toList, some 'n', [w])
  | .restrict w x _ => ("--dist-restrict".toList, some 'r', [w, x])
  | .refined true => ("--refined".toList, none, [])
  | .refined false => ("--no-refined".toList, none, [])
  | .outmode w => ("--outmode".toList, some 'o', [w])
  | .move true => ("--move-supercell".toList, some 'S', [])
  | .move false => ("--no-move-supercell".toList, some 'N', [])

/-- a setting of `suplat` -/
inductive SupSet
  | comment (w : List Char)
  | volumn (w : List Char) (n : ℤ)
  | ld (b : Bool)
  | outmode (w : List Char)

def SupSet.names : SupSet → List Char × Option Char × List (List Char)
  | .comment w => ("--comment".toList, some 'c', [w])
  | .volumn w _ => ("--volumn".toList, some 'v', [w])
  | .ld true => ("--ld".toList, some 'L', [])
  | .ld false => ("--no-ld".toList, none, [])
  | .outmode w => ("--outmode".toList, some 'o', [w])

/-- a setting of `ocutenter` and `ocumakert` -/
inductive TerSet
  | comment (w : List Char)
  | element (w : List Char)
  | speckle (a b : List Char)
  | number (a b : List Char) (m n : ℤ)
  | zoom (w : List Char) (x : ℚ)
  | restrict (w x : List Char) (d : ℚ)
  | refined (b : Bool)
  | outmode (w : List Char)
  | move (b : Bool)

def TerSet.names : TerSet → List Char × Option Char × List (List Char)
  | .comment w => ("--comment".toList, none, [w])
  | .element w => ("--element".toList, none, [w])
  | .speckle a b => ("--speckle".toList, none, [a, b])
  | .number a b _ _ => ("--number-speckle".toList, some 'n', [a, b])
  | .zoom w _ => ("--zoom".toList, none, [w])
  | .restrict w x _ => ("--dist-restrict".toList, some 'r', [w, x])
  | .refined true => ("--refined".toList, none, [])
  | .refined false => ("--no-refined".toList, none, [])
  | .outmode w => ("--outmode".toList, none, [w])
  | .move true => ("--move-supercell".toList, some 'S', [])
  | .move false => ("--no-move-supercell".toList, some 'N', [])

/-- a setting of one of the `runati` commands -/
inductive AtiSet
  | center (w : List Char)
  | radius (w : List Char) (x : ℚ)
  | remove (w : List Char)
  | refined (b : Bool)
  | scale (a b c : List Char) (x y z : ℤ)
  | outmode (w : List Char)

def AtiSet.names : AtiSet → List Char × Option Char × List (List Char)
  | .center w => ("--center-element".toList, some 'c', [w])
  | .radius w _ => ("--radius".toList, some 'r', [w])
  | .remove w => ("--element-remove".toList, some 'e', [w])
  | .refined true => ("--refined".toList, none, [])
  | .refined false => ("--no-refined".toList, none, [])
  | .scale a b c _ _ _ => ("--scale".toList, some 's', [a, b, c])
  | .outmode w => ("--outmode".toList, none, [w])

end Spec
