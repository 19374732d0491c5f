import Verif.Model.GeneralCell
import Verif.Py.Seq

/-! # `GeneralCell` and the numpy arrays it holds

The other modules treat cells as values. Here the arrays are objects with identity, which the caller of the library may share between cells
and change in place (C95). Simplification: an array is not resized in place, and views of parts of an array are not modelled. -/

namespace Verif

/-- A `GeneralCell` object (ababe/stru/scaffold.py:250-260): references of the arrays `_lattice`, `_positions`, `_numbers`, of the third
member of `_spg_cell` (its first two members are `_lattice` and `_positions`), and `_num_count` -/
structure CellObj where
  lat : ℕ
  pos : ℕ
  num : ℕ
  spgNum : ℕ
  count : ℕ
  deriving DecidableEq

/-- The heap: arrays for lattices, for positions and for atomic numbers, and the cells; references are list indices -/
structure Arrays where
  lats : List (M3 ℚ)
  poss : List (List (V3 ℚ))
  nums : List (List ℤ)
  cells : List CellObj

/-- nothing allocated yet -/
def Arrays.empty : Arrays := ⟨[], [], [], []⟩

/-- What a program can do with cells and arrays -/
inductive ArrOp
  /-- `np.array(...)` -/
  | newLat (m : M3 ℚ)
  /-- `np.array(...)` -/
  | newPos (ps : List (V3 ℚ))
  /-- `np.array(...)` -/
  | newNum (ns : List ℤ)
  /-- `GeneralCell(lattice, positions, numbers)` -/
  | construct (l p n : ℕ)
  /-- `cell.numbers = arr` -/
  | assign (c n : ℕ)
  /-- `arr[i] = row` for a lattice array, `i < 3` -/
  | writeLat (l : ℕ) (i : Fin 3) (row : V3 ℚ)
  /-- `arr[i] = row` for an array of positions -/
  | writePos (p : ℕ) (i : ℤ) (row : V3 ℚ)
  /-- `arr[i] = z` for an array of numbers -/
  | writeNum (n : ℕ) (i : ℤ) (z : ℤ)

/-- `lattice[i] = row` on the array -/
def setRow (m : M3 ℚ) (i : Fin 3) (row : V3 ℚ) : M3 ℚ :=
  if i = 0 then (row, m.2.1, m.2.2) else if i = 1 then (m.1, row, m.2.2) else (m.1, m.2.1, row)

/-- `GeneralCell.__init__` on the heap (ababe/stru/scaffold.py:250-260): the lattice array is kept, `positions[init_index]` and
`numbers[init_index]` are new arrays, and `_spg_cell` holds the same arrays as the attributes -/
def Arrays.construct (w : Arrays) (l p n : ℕ) : Arrays × Py (Option ℕ) :=
  match w.lats[l]?, w.poss[p]?, w.nums[n]? with
  | some L, some P, some N =>
    match GCell.new L P N with
    | .error e => (w, .error e)
    | .ok g => ({ w with poss := w.poss ++ [g.positions], nums := w.nums ++ [g.numbers],
                         cells := w.cells ++ [⟨l, w.poss.length, w.nums.length, w.nums.length, g.numCount⟩] }, .ok (some w.cells.length))
  | _, _, _ => (w, .error .nameError)

/-- one operation; the result is the reference of a new object. The constructor is ababe/stru/scaffold.py:250-260, the setter of `numbers`
ababe/stru/scaffold.py:302-304; the other operations are numpy's. A reference to nothing is a NameError of the calling program. -/
def Arrays.step (w : Arrays) : ArrOp → Arrays × Py (Option ℕ)
  | .newLat m => ({ w with lats := w.lats ++ [m] }, .ok (some w.lats.length))
  | .newPos ps => ({ w with poss := w.poss ++ [ps] }, .ok (some w.poss.length))
  | .newNum ns => ({ w with nums := w.nums ++ [ns] }, .ok (some w.nums.length))
  | .construct l p n => w.construct l p n
  | .assign c n =>
    match w.cells[c]?, w.nums[n]? with
    | some o, some _ => ({ w with cells := w.cells.set c { o with num := n } }, .ok none)
    | _, _ => (w, .error .nameError)
  | .writeLat l i row =>
    match w.lats[l]? with
    | some m => ({ w with lats := w.lats.set l (setRow m i row) }, .ok none)
    | none => (w, .error .nameError)
  | .writePos p i row =>
    match w.poss[p]? with
    | some ps => match pySet ps i row with
      | .ok ps' => ({ w with poss := w.poss.set p ps' }, .ok none)
      | .error e => (w, .error e)
    | none => (w, .error .nameError)
  | .writeNum n i z =>
    match w.nums[n]? with
    | some ns => match pySet ns i z with
      | .ok ns' => ({ w with nums := w.nums.set n ns' }, .ok none)
      | .error e => (w, .error e)
    | none => (w, .error .nameError)

/-- a history of operations; the program goes on after an exception -/
def Arrays.run (w : Arrays) (ops : List ArrOp) : Arrays := ops.foldl (fun w op => (w.step op).1) w

/-- the cell as a value: the properties `lattice`, `positions`, `numbers`, `spg_cell[2]` and `num_count`
(ababe/stru/scaffold.py:286-326) -/
def Arrays.view (w : Arrays) (c : ℕ) : Option GCell := do
  let o ← w.cells[c]?
  let l ← w.lats[o.lat]?
  let p ← w.poss[o.pos]?
  let n ← w.nums[o.num]?
  let s ← w.nums[o.spgNum]?
  return ⟨l, p, n, s, o.count⟩

end Verif
