import Verif.Py.Text
import Mathlib.Data.Nat.Digits.Defs

/-! # Decimal numerals as Python's `float` and `int` accept them (specification)

The grammar of the language reference, for ASCII texts: white space around, an optional sign, digits with single underscores between them, a
point, an exponent. -/

namespace Verif

/-- only white space -/
def BlankText (s : List Char) : Prop := ∀ c ∈ s, isWs c = true

/-- the text of a sequence of digits, most significant first; a single underscore may stand between two digits -/
inductive DigitText : List Char → List ℕ → Prop
  | last {d : ℕ} (h : d < 10) : DigitText [digChar d] [d]
  | next {d : ℕ} {s : List Char} {ds : List ℕ} (h : d < 10) (r : DigitText s ds) : DigitText (digChar d :: s) (d :: ds)
  | under {d : ℕ} {s : List Char} {ds : List ℕ} (h : d < 10) (r : DigitText s ds) : DigitText (digChar d :: '_' :: s) (d :: ds)

/-- the number with these digits, most significant first -/
def digitsValue (ds : List ℕ) : ℕ := Nat.ofDigits 10 ds.reverse

/-- an optional sign -/
inductive SignText : List Char → ℤ → Prop
  | none : SignText [] 1
  | plus : SignText ['+'] 1
  | minus : SignText ['-'] (-1)

/-- digits with an optional decimal point, at least one digit -/
inductive MantissaText : List Char → ℚ → Prop
  | int {s : List Char} {ds : List ℕ} (h : DigitText s ds) : MantissaText s (digitsValue ds)
  | intPoint {s : List Char} {ds : List ℕ} (h : DigitText s ds) : MantissaText (s ++ ['.']) (digitsValue ds)
  | frac {f : List Char} {fs : List ℕ} (h : DigitText f fs) : MantissaText ('.' :: f) ((digitsValue fs : ℚ) / 10 ^ fs.length)
  | both {s f : List Char} {ds fs : List ℕ} (h : DigitText s ds) (h' : DigitText f fs) :
      MantissaText (s ++ '.' :: f) ((digitsValue ds : ℚ) + (digitsValue fs : ℚ) / 10 ^ fs.length)

/-- an optional exponent -/
inductive ExponentText : List Char → ℤ → Prop
  | none : ExponentText [] 0
  | some {c : Char} {sg s : List Char} {sign : ℤ} {ds : List ℕ} (hc : c = 'e' ∨ c = 'E') (h : SignText sg sign) (h' : DigitText s ds) :
      ExponentText (c :: (sg ++ s)) (sign * digitsValue ds)

/-- a text that denotes the number `x` -/
def FloatText (s : List Char) (x : ℚ) : Prop :=
  ∃ a sg m ex b, ∃ sign exponent : ℤ, ∃ v : ℚ, s = a ++ (sg ++ (m ++ ex)) ++ b ∧ BlankText a ∧ BlankText b ∧ SignText sg sign ∧
    MantissaText m v ∧ ExponentText ex exponent ∧ x = sign * (v * 10 ^ exponent)

/-- a text that denotes the integer `n` -/
def IntText (s : List Char) (n : ℤ) : Prop :=
  ∃ a sg t b, ∃ sign : ℤ, ∃ ds, s = a ++ (sg ++ t) ++ b ∧ BlankText a ∧ BlankText b ∧ SignText sg sign ∧ DigitText t ds ∧
    n = sign * digitsValue ds

end Verif
