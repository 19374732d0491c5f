import Verif.Py.Text

/-! # `str` of a one-dimensional integer array, as used by ababe/stru/sogen.py:270

This is numpy's code, not ababe's: `array2string` of numpy 1.14 and later with the default print options (more than 1000 entries are
abbreviated to three at each end, lines have at most 75 characters). Earlier versions print `..., ` and break lines at slightly different
places. -/

namespace Verif

/-- the entries printed; `none` is the ellipsis (`_leading_trailing`, ababe/stru/sogen.py:270) -/
def npShown (a : List ℤ) : List (Option ℤ) :=
  if a.length ≤ 1000 then a.map some else (a.take 3).map some ++ none :: (a.drop (a.length - 3)).map some

/-- the common width of the numbers (`IntegerFormat`, ababe/stru/sogen.py:270): the longer of the largest and the smallest one printed -/
def npWidth (l : List ℤ) : ℕ :=
  max (intStr (l.foldl max (l.headD 0))).length (intStr (l.foldl min (l.headD 0))).length

/-- one entry as printed (ababe/stru/sogen.py:270) -/
def npWord (width : ℕ) : Option ℤ → List Char
  | some x => padLeft width (intStr x)
  | none => "...".toList

/-- `s.rstrip()` -/
def pyRstrip (s : List Char) : List Char := (s.reverse.dropWhile isWs).reverse

/-- `_extendLine` (ababe/stru/sogen.py:270): the finished lines and the current line; a word that does not fit begins a new line, unless the
current line has only the indent -/
def npExtend (text line word : List Char) : List Char × List Char :=
  if 74 < line.length + word.length ∧ 1 < line.length then (text ++ pyRstrip line ++ ['\n'], ' ' :: word) else (text, line ++ word)

/-- the loop of `_formatArray` (ababe/stru/sogen.py:270): a separator after every word but the last -/
def npLines : List (List Char) → List Char → List Char → List Char
  | [], text, line => text ++ line
  | word :: rest, text, line =>
    let (text', line') := npExtend text line word
    if rest = [] then text' ++ line' else npLines rest text' (line' ++ [' '])

/-- the text between the brackets (ababe/stru/sogen.py:270); the indent of the first line is dropped -/
def npInner (shown : List (Option ℤ)) : List Char :=
  if shown = [] then [] else (npLines (shown.map (npWord (npWidth (shown.filterMap id)))) [] [' ']).drop 1

/-- `str(arr)` for a one-dimensional integer array (ababe/stru/sogen.py:270) -/
def npArrayStr (a : List ℤ) : List Char := '[' :: npInner (npShown a) ++ [']']

end Verif
