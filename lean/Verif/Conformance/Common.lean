import Verif.Model.GeneralCell

/-! # Shared definitions of the conformance checks

The modules in `Verif/Conformance` transcribe the expectations in the test suite of the repository (`/repo/ababe/*/tests`) and evaluate
the model on them with `#guard`. They are tests of the model against what its authors expect of the code, not proofs, and nothing else
imports them. What the code gets from spglib is given as the exact group of the structure, written out from its definition. -/

namespace Verif.Conformance

/-- the call returns a value for which the test holds -/
def returns {α} (x : Py α) (test : α → Bool) : Bool :=
  match x with
  | .ok a => test a
  | .error _ => false

/-- the call raises -/
def raises {α} (x : Py α) (e : PyErr) : Bool :=
  match x with
  | .ok _ => false
  | .error e' => e == e'

def B : Specie := ⟨"B", 5⟩
def C : Specie := ⟨"C", 6⟩
def S : Specie := ⟨"S", 16⟩
def Ti : Specie := ⟨"Ti", 22⟩
def Cu : Specie := ⟨"Cu", 29⟩
def Zn : Specie := ⟨"Zn", 30⟩
def Cs : Specie := ⟨"Cs", 55⟩
def G : Specie := Specie.ghost

/-- an injective numbering of short lists of atom numbers in place of xxhash -/
def code (l : List ℤ) : ℕ := l.foldl (fun a z => a * 128 + z.toNat) 1

/-- `np.allclose(a, b)` with the default tolerances -/
def near (a b : ℚ) : Bool := decide (|a - b| ≤ 1 / 10 ^ 8 + 1 / 10 ^ 5 * |b|)
def nearV (a b : V3 ℚ) : Bool := near a.1 b.1 && near a.2.1 b.2.1 && near a.2.2 b.2.2
def nearM (a b : M3 ℚ) : Bool := nearV a.1 b.1 && nearV a.2.1 b.2.1 && nearV a.2.2 b.2.2
def nearL (a b : List (V3 ℚ)) : Bool := a.length == b.length && (a.zip b).all fun p => nearV p.1 p.2

def diag (a b c : ℤ) : M3 ℤ := ((a, 0, 0), (0, b, 0), (0, 0, c))

/-! ### the cell with twelve sites of test_sogen.py, test_scaffold.py and test_restriction.py: a bcc crystal, 3 × 2 × 1 conventional cells -/

def pos12 : List (V3 ℚ) :=
  [(0, 0, 0), (0, 1/2, 0), (33333/100000, 0, 0), (33333/100000, 1/2, 0), (66666/100000, 0, 0), (66666/100000, 1/2, 0),
   (16666/100000, 1/4, 1/2), (16666/100000, 3/4, 1/2), (1/2, 1/4, 1/2), (1/2, 3/4, 1/2), (83333/100000, 1/4, 1/2),
   (83333/100000, 3/4, 1/2)]

def lat12 : M3 ℚ := ((3, 0, 0), (0, 2, 0), (0, 0, 1))

def cell12 (numbers : List ℤ) : Py GCell := GCell.new lat12 pos12 numbers

/-- the operations of the bcc crystal that keep the lattice `lat12`: reflections in the axes and the twelve translations -/
def ops12 : List (M3 ℤ × V3 ℚ) :=
  [1, -1].flatMap fun a => [1, -1].flatMap fun b => [1, -1].flatMap fun c =>
    ([0, 1, 2] : List ℚ).flatMap fun i => ([0, 1] : List ℚ).flatMap fun j =>
      [(diag a b c, (i / 3, j / 2, 0)), (diag a b c, (i / 3 + 1 / 6, j / 2 + 1 / 4, 1 / 2))]

end Verif.Conformance
