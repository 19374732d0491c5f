import Verif.Conformance.Common
import Verif.Model.Writers
import Verif.Model.ScaffoldMore

/-! # Conformance: ababe/io/tests and ababe/stru/tests/test_io.py -/

namespace Verif.Conformance

/-- no cube root is needed: the files scale with a positive number -/
def noRoot (x : ℚ) : ℚ := x

/-! ### ababe/io/tests/test_vasp.py -/

def poscar : List Char := "S6Zn2
1
  2.828427   0.000000   0.000000
  0.000000   2.828427   0.000000
  0.000000   0.000000  12.000000
S Zn
6 2
direct
  0.000000   0.500000   0.250000 S
  0.000000   0.500000   0.583333 S
  0.000000   0.500000   0.916667 S
  0.500000   0.000000   0.083333 S
  0.500000   0.000000   0.416667 S
  0.500000   0.000000   0.750000 S
  0.000000   0.000000   0.666667 Zn
  0.500000   0.500000   0.833333 Zn
".toList

def latP : M3 ℚ := ((28284/10000, 0, 0), (0, 28284/10000, 0), (0, 0, 12))

-- test_from_string
#guard returns (vaspFromString noRoot poscar) fun r =>
  nearM r.1 latP && r.2.2 == [16, 16, 16, 16, 16, 16, 30, 30] && nearL r.2.1
    [(0, 1/2, 1/4), (0, 1/2, 5833/10000), (0, 1/2, 9167/10000), (1/2, 0, 833/10000), (1/2, 0, 4167/10000), (1/2, 0, 3/4), (0, 0, 6667/10000),
     (1/2, 1/2, 8333/10000)]

-- test_get_gcell, and test_vasp_from_file of test_io.py
#guard returns (readFile noRoot (.text poscar) "some/dir/POSCAR_".toList none) fun c =>
  nearM c.lattice latP && c.numbers == [30, 16, 16, 16, 16, 16, 16, 30] && nearL c.positions
    [(0, 0, 6667/10000), (0, 1/2, 1/4), (0, 1/2, 5833/10000), (0, 1/2, 9167/10000), (1/2, 0, 833/10000), (1/2, 0, 4167/10000), (1/2, 0, 3/4),
     (1/2, 1/2, 8333/10000)]

def latO : M3 ℚ := ((0, 1/2, 53333333333/100000000000), (1/2, 0, 56666666667/100000000000), (1/2, 1/2, 0))
def cellO : Py GCell := GCell.new latO [(0, 0, 0), (1/4, 1/4, 1/4)] [30, 16]

-- test_get_string
#guard returns (do vaspString (← cellO) 1 true) fun s => String.ofList s == "S1Zn1
1
  0.000000   0.500000   0.533333
  0.500000   0.000000   0.566667
  0.500000   0.500000   0.000000
S Zn
1 1
direct
  0.250000   0.250000   0.250000 S
  0.000000   0.000000   0.000000 Zn
"

/-! ### ababe/io/tests/test_yaml.py (the mapping in the file) -/

def docIn (x : ℚ) : YDoc :=
  ⟨some "zb_ZnS".toList, some ((0, 1/2, 1/2), (1/2, 0, 1/2), (1/2, 1/2, 0)), some [(0, 0, 0), (x, 1/4, 1/4)], some [30, 16], some 4⟩

-- test_from_string
#guard returns (yamlFromDoc (docIn (25666666/100000000))) fun r =>
  nearM r.1 ((0, 2, 2), (2, 0, 2), (2, 2, 0)) && nearL r.2.1 [(0, 0, 0), (2567/10000, 1/4, 1/4)] && r.2.2 == [30, 16]

-- test_get_gcell, and test_yaml_from_file of test_io.py
#guard returns (readFile noRoot (.doc (docIn (1/4))) "some/dir/zns.yaml".toList none) fun c =>
  nearM c.lattice ((0, 2, 2), (2, 0, 2), (2, 2, 0)) && nearL c.positions [(0, 0, 0), (1/4, 1/4, 1/4)] && c.numbers == [30, 16]

/-- what the test expects in the file -/
def docOut : YDoc :=
  ⟨some "S1Zn1".toList, some ((0, 1/2, 533333/1000000), (1/2, 0, 566667/1000000), (1/2, 1/2, 0)), some [(0, 0, 0), (1/4, 1/4, 1/4)],
    some [30, 16], some 1⟩

-- test_get_string
#guard returns (do yamlDoc (← cellO)) (· == docOut)

/-! ### ababe/io/tests/test_io.py -/

/-- a heap with the cell of `setUp` -/
def heapO : Arrays := Arrays.empty.run [.newLat latO, .newPos [(0, 0, 0), (1/4, 1/4, 1/4)], .newNum [30, 16], .construct 0 0 0]

def written (fname : String) (fmt : Option String) : Option FileContent :=
  dictGet (gioWrite heapO 0 (some fname.toList) (fmt.map String.toList) ⟨[], []⟩).1.files fname.toList

def isText (t : Option FileContent) : Bool :=
  match t, cellO.bind fun c => vaspString c 1 true with
  | some (.text s), .ok s' => s == s'
  | _, _ => false

def isDoc (t : Option FileContent) : Bool :=
  match t with
  | some (.doc d) => d == docOut
  | _ => false

-- test_vasp_write_file
#guard isText (written "testing.vasp" none)
#guard isText (written "POSCAR______" none)
#guard isText (written "i_have_noname" (some "vasp"))

-- test_yaml_write_file
#guard isDoc (written "testing.yaml" none)
#guard isDoc (written "testing" (some "yaml"))

-- test_noname_write_file: printed, nothing written
#guard returns (gioWrite heapO 0 none (some "vasp".toList) ⟨[], []⟩).2 fun t => isText t
#guard (gioWrite heapO 0 none (some "vasp".toList) ⟨[], []⟩).1.files.isEmpty

/-! ### ababe/stru/tests/test_io.py -/

-- testYamlOutput.test_get_string
#guard returns (do yamlDocOld (← GCell.new ((1/2, 1/2, -1/2), (-1/2, 1/2, 1/2), (1/2, -1/2, 1/2)) [(0, 0, 0)] [16]) 3) (· ==
  ⟨some "S1".toList, some ((1/2, 1/2, -1/2), (-1/2, 1/2, 1/2), (1/2, -1/2, 1/2)), some [(0, 0, 0)], some [16], some 3⟩)

/-- the lattice with `sqrt(3)/2` to fifteen digits -/
def latTriS : M3 ℚ := ((0, 0, 20), (1, 0, 0), (1/2, 866025403784439/1000000000000000, 0))

-- testVaspPOSCAR.test_get_string: vacancies are left out
#guard returns (do
  let s ← CStru.fromArray latTriS [[[5, 0, 5, 5, 5, 5], [5, 5, 5, 5, 5, 5], [5, 5, 0, 5, 5, 5]]]
  vaspString (← s.getGcell) 4 true) fun s => String.ofList s == "B16
4
  0.000000   0.000000  20.000000
  3.000000   0.000000   0.000000
  3.000000   5.196152   0.000000
B
16
direct
  0.000000   0.000000   0.000000 B
  0.000000   0.000000   0.333333 B
  0.000000   0.000000   0.500000 B
  0.000000   0.000000   0.666667 B
  0.000000   0.000000   0.833333 B
  0.000000   0.333333   0.000000 B
  0.000000   0.333333   0.166667 B
  0.000000   0.333333   0.333333 B
  0.000000   0.333333   0.500000 B
  0.000000   0.333333   0.666667 B
  0.000000   0.333333   0.833333 B
  0.000000   0.666667   0.000000 B
  0.000000   0.666667   0.166667 B
  0.000000   0.666667   0.500000 B
  0.000000   0.666667   0.666667 B
  0.000000   0.666667   0.833333 B
"

#guard returns (do
  let s ← CStru.fromArray latTriS [[[5, 29, 5, 5, 5, 5], [5, 5, 5, 5, 5, 5], [5, 5, 29, 5, 5, 5]]]
  vaspString (← s.getGcell) 4 true) fun s => String.ofList s == "B16Cu2
4
  0.000000   0.000000  20.000000
  3.000000   0.000000   0.000000
  3.000000   5.196152   0.000000
B Cu
16 2
direct
  0.000000   0.000000   0.000000 B
  0.000000   0.000000   0.333333 B
  0.000000   0.000000   0.500000 B
  0.000000   0.000000   0.666667 B
  0.000000   0.000000   0.833333 B
  0.000000   0.333333   0.000000 B
  0.000000   0.333333   0.166667 B
  0.000000   0.333333   0.333333 B
  0.000000   0.333333   0.500000 B
  0.000000   0.333333   0.666667 B
  0.000000   0.333333   0.833333 B
  0.000000   0.666667   0.000000 B
  0.000000   0.666667   0.166667 B
  0.000000   0.666667   0.500000 B
  0.000000   0.666667   0.666667 B
  0.000000   0.666667   0.833333 B
  0.000000   0.000000   0.166667 Cu
  0.000000   0.666667   0.333333 Cu
"

end Verif.Conformance
