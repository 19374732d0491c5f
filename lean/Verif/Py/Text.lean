import Verif.Py.Basic

/-! # Characters and decimal numerals (library functions used by the code, on lists of characters) -/

namespace Verif

/-- the ten ASCII digits (`\d` of Python's `re`, restricted to ASCII) -/
def isDig (c : Char) : Bool := '0' ≤ c && c ≤ '9'

/-- digit character of `d < 10` -/
def digChar (d : ℕ) : Char := Char.ofNat (48 + d)

/-- value of a digit character -/
def digVal (c : Char) : ℕ := c.toNat - 48

/-- decimal digits, least significant first; `fuel` bounds the recursion (`n + 1` always suffices) -/
def digitsLE : ℕ → ℕ → List ℕ
  | 0, _ => []
  | f + 1, n => if n < 10 then [n] else (n % 10) :: digitsLE f (n / 10)

/-- `str(n)` for a non-negative integer -/
def natStr (n : ℕ) : List Char := ((digitsLE (n + 1) n).reverse).map digChar

/-- value of a list of digit characters -/
def natOfDigits (l : List Char) : ℕ := l.foldl (fun a c => a * 10 + digVal c) 0

/-- first match of the regular expression `\d+`: the first maximal run of digits -/
def firstDigits (s : List Char) : Option (List Char) :=
  match s.dropWhile (fun c => !isDig c) with
  | [] => none
  | c :: cs => some ((c :: cs).takeWhile isDig)

/-- `str(n)` for an integer -/
def intStr (n : ℤ) : List Char := if n < 0 then '-' :: natStr n.natAbs else natStr n.natAbs

/-- the last `k` decimal digits of `m`, with leading zeros -/
def padDigits : ℕ → ℕ → List Char
  | 0, _ => []
  | k + 1, m => padDigits k (m / 10) ++ [digChar (m % 10)]

/-- `'{:.6f}'.format(x)`: six decimals, rounded to nearest, ties to even; a negative number keeps its sign even when it
rounds to zero -/
def fixed6 (x : ℚ) : List Char :=
  let n := (rint (x * 10 ^ 6)).natAbs
  (if x < 0 then ['-'] else []) ++ natStr (n / 10 ^ 6) ++ '.' :: padDigits 6 (n % 10 ^ 6)

/-- pad on the left with blanks to width `w` -/
def padLeft (w : ℕ) (s : List Char) : List Char := List.replicate (w - s.length) ' ' ++ s

/-- `'{:10.6f}'.format(x)` -/
def fmt106 (x : ℚ) : List Char := padLeft 10 (fixed6 x)

/-- `sep.join(parts)` -/
def pyJoin (sep : List Char) : List (List Char) → List Char
  | [] => []
  | [s] => s
  | s :: t :: rest => s ++ sep ++ pyJoin sep (t :: rest)

/-- white space (ASCII) -/
def isWs (c : Char) : Bool := c == ' ' || c == '\t' || c == '\n' || c == '\r' || c == '\x0b' || c == '\x0c' || c == '\x1c' || c == '\x1d' ||
  c == '\x1e' || c == '\x1f'

/-- `s.split('\n')` -/
def splitNL : List Char → List (List Char)
  | [] => [[]]
  | c :: cs =>
    if c = '\n' then [] :: splitNL cs
    else match splitNL cs with
      | [] => [[c]]
      | l :: ls => (c :: l) :: ls

/-- `s.split()` with the word read so far (reversed) -/
def wordsAux : List Char → List Char → List (List Char)
  | [], acc => if acc = [] then [] else [acc.reverse]
  | c :: cs, acc =>
    if isWs c then (if acc = [] then wordsAux cs [] else acc.reverse :: wordsAux cs [])
    else wordsAux cs (c :: acc)

/-- `s.split()` -/
def words (s : List Char) : List (List Char) := wordsAux s []

/-- `s.strip()` -/
def pyStrip (s : List Char) : List Char := ((s.dropWhile isWs).reverse.dropWhile isWs).reverse

/-- `bool(s.rstrip())`: some character is not white space -/
def notBlank (s : List Char) : Bool := s.any fun c => !isWs c

/-- an unsigned decimal number without exponent: digits, optionally a point and digits, at least one digit -/
def parseDecimal (s : List Char) : Option ℚ :=
  let ip := s.takeWhile isDig
  match s.dropWhile isDig with
  | [] => if ip = [] then none else some (natOfDigits ip)
  | c :: fp =>
    if c = '.' ∧ fp.all isDig = true ∧ ip ++ fp ≠ [] then some ((natOfDigits (ip ++ fp) : ℚ) / 10 ^ fp.length) else none

/-- an unsigned integer -/
def parseDigits (s : List Char) : Option ℕ := if s ≠ [] ∧ s.all isDig = true then some (natOfDigits s) else none

/-- an integer with an optional sign -/
def parseSignedInt (s : List Char) : Option ℤ :=
  match s with
  | '-' :: t => (parseDigits t).map fun n : ℕ => -(n : ℤ)
  | '+' :: t => (parseDigits t).map fun n : ℕ => (n : ℤ)
  | t => (parseDigits t).map fun n : ℕ => (n : ℤ)

/-- `e` and `E` -/
def isExp (c : Char) : Bool := c == 'e' || c == 'E'

/-- an unsigned decimal number, optionally with an exponent -/
def parseUnsigned (s : List Char) : Option ℚ :=
  match s.dropWhile (fun c => !isExp c) with
  | [] => parseDecimal s
  | _ :: ex =>
    match parseDecimal (s.takeWhile fun c => !isExp c), parseSignedInt ex with
    | some m, some k => some (m * 10 ^ k)
    | _, _ => none

/-- a decimal number with an optional sign -/
def parseSigned (s : List Char) : Option ℚ :=
  match s with
  | '-' :: t => (parseUnsigned t).map fun x => -x
  | '+' :: t => parseUnsigned t
  | t => parseUnsigned t

/-- a single underscore between two digits is skipped, any other is an error (Python 3.6 and later); `prev`: the character before is a
digit -/
def dropUnderscores : Bool → List Char → Option (List Char)
  | _, [] => some []
  | prev, c :: cs =>
    if c = '_' then (if prev && cs.head?.any isDig then dropUnderscores false cs else none)
    else (dropUnderscores (isDig c) cs).map (c :: ·)

/-- `float(s)`: `ValueError` if `s` is not a number. Simplification: `inf` and `nan`, which Python also accepts, are rejected; a number too
large for a double is kept; digits and blanks outside ASCII are rejected. -/
def parseFloat (s : List Char) : Py ℚ :=
  match (dropUnderscores false (pyStrip s)).bind parseSigned with
  | some x => .ok x
  | none => .error .valueError

/-- `int(s)`: `ValueError` if `s` is not an integer. Simplification: digits and blanks outside ASCII are rejected. -/
def parseInt (s : List Char) : Py ℤ :=
  match (dropUnderscores false (pyStrip s)).bind parseSignedInt with
  | some x => .ok x
  | none => .error .valueError

/-- `fnmatch(s, pattern)` for patterns made of literal characters and `*` (which also matches `/`) -/
def fnmatch : List Char → List Char → Bool
  | [], s => s.isEmpty
  | c :: p, s =>
    if c = '*' then s.tails.any (fnmatch p)
    else match s with
      | [] => false
      | x :: xs => x == c && fnmatch p xs

/-- `s.lower()` (ASCII letters) -/
def lower (s : List Char) : List Char := s.map fun c => if 'A' ≤ c ∧ c ≤ 'Z' then Char.ofNat (c.toNat + 32) else c

end Verif
