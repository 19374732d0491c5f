# Formal model of ababe in Lean 4 — design

Source of truth: `/repo` (shaobinqiu/ababe at the pinned commit, read as text, never run).
Properties: `properties.jsonl` (C01…). Claims and exact theorem names: `MANIFEST.json`.

## 1. Layout

| directory | content |
|---|---|
| `lean/Verif/Py/*.lean` | Python / numpy / itertools primitives used by the code (errors, indexing, `combinations`, `np.around`, `np.lexsort`, fancy indexing, 3-vectors and 3×3 matrices) |
| `lean/Verif/Model/*.lean` | the model, function by function; every definition cites file and lines |
| `lean/Verif/Spec/*.lean` | small independent specifications (decorated crystals, sublattices, substitution sets, …) that do not mention the model |
| `lean/Verif/Lemmas/*.lean` | proof engineering |
| `lean/Verif/Props/*.lean` | the property theorems, each with a non-vacuity `example` |
| `lean/Verif/Conformance/*.lean` | the expectations of the repository's own test suite (`/repo/ababe/*/tests`), evaluated on the model with `#guard`; these are tests that the model is the code, not proofs, and no theorem uses them |

## 2. Trusted base

* Lean 4.33 kernel; axioms at most `propext`, `Classical.choice`, `Quot.sound` (checked by `vcheck`). No `sorry`, no own axioms, no `native_decide`/`bv_decide`.
* Python 3.6 or later is assumed where the applications run: setup.py declares 3.5, but they call `random.choices`.
* The reading of the Python code that the model represents (each definition cites what it models).
* Modelling conventions, valid everywhere unless a definition says otherwise:
  * **Numbers.** Python `int`/numpy integers are `Int`/`Nat`, unbounded (no int64 overflow). Floats are modelled by exact rationals `ℚ`. Every finite float is a rational, so all inputs are covered; what is not covered by the main model is the rounding of intermediate float operations; C87, C88, C93, C94, C122, C123, C127, C130, C131 and C134 close this gap for cell construction, site permutations, occupation generators, superlattices, the distance restriction, the files, the tree search, the sphere query, the divisors of the volume, whole application runs and grid structures by a second model in binary64 (no overflow to infinity, no NaN, no signed zero) and a proof that its results are those of the exact one under stated conditions. `np.around(x,k)` and `round(x,k)` are exact round-half-even to `k` decimals; `x % 1` is `x - ⌊x⌋`.
  * **Square roots.** Distances are compared through their squares (`√a > d ⟺ d < 0 ∨ a > d²`); cube roots are stated over `ℝ`.
  * **Exceptions** are values: `Except PyErr α`.
  * **Lists/arrays** are `List`. Objects whose aliasing matters (SitesGrid rows, Site objects) get an explicit heap.
  * **Generators** are lists (eager); C25 relates the lazy coroutine/`itertools.tee` machine to these lists for all schedules.
  * **Sets/dicts.** `dict`/`set` used as a membership table is a list with membership; where the iteration order of a Python `set` is observable the theorem quantifies over every order. The same holds for the children of a search node, which `mcts.py` reads with the Python 2 `dict.iteritems`: `MGame.iter` is any rearrangement of the insertion order.
* **External code is a parameter**: `xxhash` (an arbitrary function `List Int → Nat`, of the bytes of the array in C128; hypotheses such as "no collision on these arrays" are explicit), `spglib` (arbitrary operation list, Wyckoff letters, standardized cell; its contract is an explicit hypothesis), `random` (arbitrary oracle), policy/value functions of MCTS (arbitrary functions), the filesystem (a finite map), `cKDTree.query_ball_point`/`pdist` (their documented meaning).
* **How the reading of the code was checked.** `lean/Verif/Conformance` runs the model on the inputs of the repository's tests and compares with the values written there (numbers of inequivalent structures, of superlattices for bcc and hcp, of buckyballs, POSCAR texts, neighbourhoods, sorted cells, …). The symmetry operations spglib would return are given there as the exact group of the test structure. Tests of the suite left out: those that only check types or timing, space group names and primitive cells (spglib), and random numbers of a fixed seed.
* **Data files** `pt.json`, `bucky_permu_table.npy`, `buckyball.json` are transcribed verbatim by `tools/gen_data.py` into generated Lean modules.

## 3. Not modelled

The source of click (its reading of command lines is modelled, C112; environment variables and shell completion are not), progress bars, log prints (the printing of a file text by `GeneralIO.write_file` is modelled, C109), the ruamel/PyYAML text syntax (YAML is modelled at mapping level), pickling, performance, memory, float rounding error outside C87/C88/C93/C94/C122/C123/C127/C130/C131/C134, int64 overflow, spglib/xxhash internals, arrays that are not contiguous or big-endian.

## 4. Plan per property

| id | what is modelled | how it is proved |
|---|---|---|
| C01,C02 | `Specie` over the transcribed table | decide over the whole table lifted to all strings/integers |
| C03 | nested-list grid with Python index normalisation | invariants over write histories |
| C04 | heap of row objects | refuted by witness; partial: what is copied |
| C05 | `to_array`/`from_array` | list induction + C01 |
| C06 | `gen_speckle` through `combinations` | bijection subsets ↔ colourings; count = `Nat.choose` |
| C07 | `get_cell`, `get_id_matrix`, `get_midpoint` | row-major index arithmetic |
| C08 | `get_neighbors` with `query_ball_point` as a filter and the real `itemgetter`/dict behaviour | exact for ≥2 hits; error for 0, malformed for 1 (witness); KeyError for a start position outside the (x,y,z) swapped ranges |
| C09–C12 | `GeneralCell.__init__` = stable argsort on rounded wrapped coordinates | merge-sort lemmas; uniqueness of sorted lists |
| C13,C14 | `get_symmetry_permutation`, `is_equivalent`; spec: decorated crystals as sets of (point mod 1, element) | sortedness + contract ⇒ inverse site permutation; group transport |
| C15–C18 | the four `gen_dup*` | `combinations` spec |
| C19–C21 | `gen_2nodup_gen`, arbitrary hash | fold invariant |
| C22–C24,C26 | `gen_add_one_speckle*`, `all_speckle_gen*` | induction over levels; orbit transport |
| C25 | lazy coroutine + tee state machine | simulation invariant over all schedules |
| C27–C29,C35 | HNF enumeration; spec: finite-index `AddSubgroup (ℤ×ℤ×ℤ)` | generators of successive projections; index = a·c·f through an explicit quotient bijection |
| C30,C31 | `SuperLatticeCell.__eq__` with rounding tolerance | integrality of denominators, n < 2000; refuted for every n ≥ 2000 (an off-diagonal 1/n is rounded away) |
| C32–C34 | `get_frac_from_H`, `to_general_cell`, `supercell` | coset representatives; equality of infinite crystals as sets; n < 100000 |
| C36,C37 | `MinDistanceRestriction` through the modelled supercell | exact characterisation; C37 refuted by a skewed cell, partial |
| C38 | regex `\d+` first match on `Symbol (N)` | proved for digit-free symbols; refuted by `P2_1 (4)` |
| C39–C41 | sphere query, clarifiers, iterator over a re-bound list | list induction |
| C42–C45 | ModifiedCell on a heap of Site objects | refinement to list operations; frame lemmas |
| C46–C51 | character-level POSCAR writer/parser, mapping-level YAML, fnmatch dispatch | parser/printer round trip; ℝ cube root for volumes |
| C52,C53 | RandomPopSet map+list | representation invariant, refinement to `Finset` |
| C54 | random walk with oracle | loop invariant |
| C55–C58 | MCTS tree as path-indexed map | invariants over playout histories |
| C59–C61 | buckyball table and generators | whole-table kernel evaluation with generators of the group; reuse of the C19–C23 theory; C60 refuted on the shipped data |
| C62–C64 | module-level functions of sogen.py | reuse; quadratic-form bounds for the four lattices; up to 990 layers the third decimal separates neighbouring sites, and a counterexample shows the bound sharp |
| C65–C67 | application loops over an abstract filesystem | list arithmetic; C66 partial (random suffix collision witness) |
| C68–C74 | order laws of cells, ModifiedCell indexing, MCTS descent and leaf values, self-extension, buckyball direct generation | see the files named after the model part |
| C75–C77 | whole runs of the occupation applications | run invariants over the abstract filesystem composed with C21–C24 |
| C78,C79 | refined/shaped cells; the commands of runatilib.py | C09, C34, C41, C44 composed with the writer |
| C80 | scaffold2d.py | case analysis on the number of selected points |
| C81 | arrangeAgent.py with random_walk_arrange | the walk invariant of C59/C60 transferred to failing neighbour functions; a set closed under neighbours contains the line through the middle, so the frontier never runs empty |
| C82 | OccupyGenerator's four duplicate-free generators | orbit counting (Lemmas/Burnside) on top of the transversal theorems C21, C22, C24 |
| C83 | all_speckle_gen on C60 | cycle types of the 120 table rows certified in the kernel (Lemmas/BuckyCycles), fixed colourings counted by cycle type (Lemmas/CycleCount) |
| C84 | HNF generators | the length of the nested loops as divisor sums; with C29 also the number of subgroups |
| C85,C86 | remaining functions of scaffold.py and buckyball.py | array and byte arithmetic |
| C87,C88 | the rounding-sensitive functions again in IEEE binary64 (`Model/Binary64`: `fl64` = round to nearest even), compared with the exact model | error bounds: `fl64` is a nearest double, `np.around` then agrees away from ties or on exact values |
| C89 | composition of C28/C31 (superlattices), C33 (enlarged cell) and C21 (decorations) against `Spec/Derivative`: decorations of the infinite parent crystal | an operation permutes the parent's sites and rotates the period lattice onto the listed one; elements read off at the sites of the enlarged cell form one of the enumerated decorations |
| C90 | composition of C65–C67, C75 (what the applications write) with C46, C49, C51 (files read back) | the records of a finished run, each read back through the dispatcher |
| C91 | distance and primitivity of infinite crystals (Spec/Filter), compared with the filters of the applications | isometries keep distances and translations; the filters are class functions; a transversal restricted to a union of classes is one |
| C92 | the tree of Model/Mcts under any number of playouts | invariant on the scores of two siblings (starvation); counting argument: visits of each sibling are bounded by the bonus, so the waiting action comes up (fairness) |
| C93 | `MinDistanceRestriction` again in binary64 (`Model/Binary64Dist`), compared with the exact model | both lists of points are permutations of aligned lists; error bound of every operation; min over pairs does not depend on the order |
| C94 | readers and writers again in binary64 (`Model/Binary64Io`), compared with the exact model | error bounds of scaling and rounding; a number with four decimals is a fixed point of all roundings |
| C95 | heap of numpy arrays and `GeneralCell` objects, histories of operations (`Model/CellArrays`) | what each step can change; invariants by induction over the history; a concrete history for the stale symmetry |
| C96 | the generators of C31 | Burnside's lemma for a finite set of operations closed under products, applied to the transversal of C31; C84 for the triclinic case |
| C97 | `occInit`, `occRun`, `occLoop` of C67, the generators of C16-C23 | case analysis of the condition and of the write; induction over the structures; the permutation table always refers to sites, so the generators are total |
| C98 | `vaspParse`, `vaspReadCell`, `yamlReadCell` of C47-C49 | inversion of the parser in both directions; C09 for the constructor |
| C99 | `parseFloat`, `parseInt` (Py/Text) against the grammar of Spec/Numerals | inversion of the parser, induction on the text for the underscores |
| C100 | `ocutenter`, `ocumakert` (Model/Apps) from the start of the run to its end, including exceptions | induction on the remaining structures, with the written files as a prefix |
| C101 | `hnfsFromN2D`, `toGeneralCell`, `genNodupUnitary`, `genNodupTrinary` | the argument of C89, with the sublattices containing the third axis characterised by their normal form |
| C102 | `suplat`, `freshDir`, `supLoop` (Model/Apps) | induction on the remaining superlattices; every listed superlattice has a cell with the elements of the input |
| C103 | `genNodupOfEle`, `genNodupUnitary`, `genNodup` (Model/Sogen) | the map from functions on n-subsets to functions on (n+1)-subsets is injective below one half (Livingstone-Wagner), restricted to functions constant on orbits; complements for the symmetry |
| C104 | `GCell.new`, `OGen.new`, `genNodupUnitary`, `genNodupOfEle`, `genNodupTrinary`, `allSpeckleUnitary`, `allSpeckleOfEle` | C21 and C23 transported along the reordering of C09 and the correspondence of C14 between number arrays and crystals |
| C105 | `hnfsFromN`, `hnfsFromN2D`, `SLCell.toGeneralCell`, `OGen.new`, `genNodupUnitary`, `genNodupOfEle`, `genNodupTrinary` | the period lattice is carried along with the crystal, so C31 fixes the superlattice; the motion between two entries keeps it and so is an operation of the enlarged cell, so C21 fixes the entry |
| C106 | `problemWalk`, `boronWalk`, `fccWalk`, `RPS` | the frontier is exactly the rim of the path (C54 invariant); induction over the rest of the sequence, the index being determined by the position because the frontier list has no duplicates |
| C107 | `GCell.new`, `symmetryPermutation`, `OGen.new`, all generator methods, `vaspString`, `vaspReadCell`, `yamlDoc`, `yamlReadCell` | the reduced coordinates agree, so the sort indices do; a relation between the two runs (same exception, or structures with the same elements) is carried through every loop |
| C108 | `gen2Nodup`, all generator methods, `Bucky.allSpeckleGen`, with the digest as parameter | listed structures have different digests (the identity is in the table), so they are at most B; images under the table are at most |table| times as many, compared with the binomial coefficient |
| C109 | `Writer` objects holding references into the heap of arrays, `Writer.writeFile`, `gioWrite`, `gioRead` on `Fs` | the references of a writer stay valid through any history (induction on it), array lengths are kept, and the computed names are those of construction |
| C110 | `SGrid.pyEq`, `CStru.pyEq`, `cubeToArray` | list equality with an element relation is equality of the images under the atomic number; entries by extensionality of nested lists |
| C111 | `AtiCmd.step`, `runAti` on `Fs`, over the command models of C79 | case split over one command; induction over the session with the invariant that the other commands' inputs and outputs are not touched |
| C112 | `readAba`, `readAti`, `runaba`, `runati`: option tables of the decorators, the parser, conversion of values, calls of the application models on `Fs` | induction over the line with a relational grammar (`Spec.Line`) as specification; reverse induction over the settings for the values |
| C113 | `GCell.supercell`, `fracFrom`, `enlarge` (exact arithmetic) | coset representatives for any non-singular matrix of non-negative entries; a negative determinant is reduced to a positive one by exchanging two rows |
| C114 | `Invocation`, `shellRun` over `runaba` and `runati` (Model/Shell) | induction over the session with the invariant that the file holds its content and its directories are known; occupation commands write only into a directory that did not exist |
| C115 | `suplat`, `ocubiter`, `writeFile`, `readFile`, `GCell.getShapedCell` | the derivative theorem on the superlattice, transport of a decoration through the relabelled standardised cell, the rounded-file theorems (C107) for the cell read back, completeness of the enumeration, distinct names from distinct suffixes |
| C116 | `genNodupCstru`, `OGen.genNodupUnitary`, `CStru.getGcell`, `getPermutationCell`, `GCell.symmetryPermutation` | both tables of permutations are the rows of the exact permutation; a selection by an injective key does not depend on the key; counts by C82 and C103 on the common cell |
| C117 | `alloySteps` on `OGen.new`, `OGen.genNodupOfEle`, `OGen.genNodupTrinary` | induction over the species: stabilisers of the intermediate cells inside the group of the starting cell; two systems of representatives of the same set have the same size |
| C118 | `GCell.new`, `GCell.supercell` | sites with the same crystal are matched up one to one by congruence, then C11 on the rebuilt cells; supercells keep the crystal by C113 |
| C119 | `hnfsFromNDups`, `SLCell.toGeneralCell` | Cauchy's theorem gives a lattice in between, Hermite normal forms (C28, C29) put it and the step into the lists; for coprime volumes the lattice in between is the set of x with n·x in the smaller one |
| C120 | `MTree.descend`, `MTree.playout`, `MTree.getMove`, `MTree.updateWithMove`, `MTree.expand` | invariant over histories: expanded nodes show the policy, and are on the way of a recorded playout; induction over the descent |
| C121 | `OGen.new`, `OGen.genDup*`, `OGen.genNodup*`, `OGen.allSpeckle*` | step-by-step comparison of the two runs (as in C107): the sets of hashes agree on decorations that correspond |
| C122 | `NodeStat.update`, `PyNum` arithmetic, `bonus64`, `NodeStat.val64`, `leafNum` | n times the value is the sum of the values up to an error that grows by (n+1) B/2^49 per step; floor division by hand for integers |
| C123 | `inEuclideanDistance64`, `World.insphere64`, `atomRemoveClarify64`, `verboseClarify64` | error bounds for image, point and distance (as in C93); induction over the centers with the sites only getting fewer |
| C124 | nothing new; two generators with different operation lists | the structures listed that are equivalent under all operations lie in different cosets of the subgroup; counting by classes of the full list |
| C125 | nothing new; `OGen.gen2Nodup` | the keys seen are those of structures equivalent to an earlier one (invariant of the loop); laws by induction on the list |
| C126 | `nodupUse`, `OGen.gen2NodupUse`, `levelsUse` (Model/Consumer), the consumer as a parameter | pure form of the loop; the keys recorded for equivalent numbers are the same set (group); representatives moved within their classes are representatives |
| C127 | `factorsRawIn`, `factorsIn`, `hnfsFromNIn`, `hnfsFromN2DIn` (Model/Binary64Factors), the computed power as a parameter | spacing of doubles below an integer; the program with the computed root is the exact program with another order of its sets |
| C128 | `leBytes`, `intBytes`, `bufBytes`, `storeInt`, `TCell.id`, `nodupTyped`, `gen2NodupTyped` (Model/Dtype) | bytes of one type determine the numbers; the keys of different types never meet, by induction over the input |
| C129 | `Suffix`, `DrawnApart` (Props/LostFiles, Lemmas/Birthday) over the outcomes of C66 | a draw without repetition for every comment; falling factorials, monotonicity around 1527 |
| C130 | the applications again in binary64 (`Model/Binary64Apps`), compared with `ocubiter` and `ocumaker`; `doubled`, `TameContent`, `SpgAgrees`, `RefineAgrees`, `ClearDistances` (Spec/Doubled) | every stage commutes with replacing all numbers by the nearest doubles: reading, sorting (C87), permutations (C87, C107), structures, restriction (C93, C36), writing |
| C131 | `keyN64`, `idSeqN64`, `CStru.getCell64`, `getPermutationCell64`, `genNodupCstru64`, `isStruEqual64` (Model/Binary64Grid); `GoodSize`, `OnGrid`, `CloseOp`, `MapsGrid` (Spec/Binary64Grid) | multiples of 1/d stay clear of the ties of both roundings unless 80 divides d or d is at least 100 gcd(d, 2000); the counterexamples at 80 and 101 by evaluation of one pair of sorts each, lifted to all lattices and species |
| C132 | `spaceGroupSatisfied` on the names of the 230 space-group types (`Spec/SpaceGroups`: symbols in spglib's spelling, external data) | the first number of each name by evaluation over the whole table; lists by following the map from a type to that number |
| C133 | `str` of a one-dimensional integer array as numpy prints it (`Model/NumpyStr`: width, line breaks, ellipsis), given to `isStruEqual` | the words of the text are the printed numbers, by induction on the lines; equality of ends against the row permutation of C63 (`Spec/GridEnds`) |
| C134 | `terInit64`, `terStructures64`, `terLoop64`, `ocutenter64`, `makertLoop64`, `ocumakert64` (Model/Binary64Ter); `TameSettings`, `TerOpts.doubled` (Spec/DoubledTer) | as C130: each step maps doubled input to doubled output; the names of temporary files depend on the existing names only |
