{"id": "C01", "title": "Element lookup round-trips", "statement": "For every symbol s that Specie(s) accepts, Specie.from_num(Specie(s).Z) has symbol s and the same Z, and Specie.to_name(Specie(s).Z) == s. Specie(s) raises KeyError exactly for symbols outside the table; from_num/to_name raise IndexError exactly for numbers outside it (0 gives the ghost).", "quantifier": "every string and every integer", "why_tests_cant": "the table is data and the strings/integers are unbounded; a test samples a few elements", "anchors": ["ababe/stru/element.py:Specie", "ababe/stru/element.py:Specie.from_num", "ababe/stru/element.py:Specie.to_name", "ababe/stru/pt.json"]}
{"id": "C02", "title": "Element equality is an equivalence decided by atomic number", "statement": "== on species is reflexive, symmetric, transitive, holds iff the atomic numbers agree, iff the names agree; Specie('G') == GhostSpecie(); != is its negation.", "quantifier": "all pairs/triples of species objects", "why_tests_cant": "quantifies over all pairs and triples", "anchors": ["ababe/stru/element.py:Specie.__eq__", "ababe/stru/element.py:GhostSpecie"]}
{"id": "C03", "title": "Grid read/write discipline", "statement": "After g[p] = sp, g[p] returns sp, every other position reads as before, and dimensions are unchanged; an access raises IndexError exactly when some coordinate is outside [-dim, dim). A fresh sea(d,w,l,sp) reads sp everywhere. This holds after any sequence of writes.", "quantifier": "every grid size, every position (negative indices included), every history of writes", "why_tests_cant": "unbounded histories and sizes", "anchors": ["ababe/stru/scaffold.py:SitesGrid.__getitem__", "ababe/stru/scaffold.py:SitesGrid.__setitem__", "ababe/stru/scaffold.py:SitesGrid.sea"]}
{"id": "C04", "title": "deepCopy gives an independent grid", "statement": "After h = g.deepCopy(), h equals g, and no later write to h is visible through g (nor the reverse).", "quantifier": "every grid, every position written, every write history", "why_tests_cant": "aliasing is only visible for particular write/read sequences", "anchors": ["ababe/stru/scaffold.py:SitesGrid.deepCopy"]}
{"id": "C05", "title": "Grid <-> array round trip", "statement": "SitesGrid.from_array(arr).to_array() == arr for every 3-d array of known atomic numbers, from_array(g.to_array()) == g for every grid; from_array raises IndexError exactly if some entry is not a known number. Arrays and grids without entries are rejected with ValueError by both.", "quantifier": "all array shapes and contents", "why_tests_cant": "all shapes and contents", "anchors": ["ababe/stru/scaffold.py:SitesGrid.to_array", "ababe/stru/scaffold.py:SitesGrid.from_array"]}
{"id": "C06", "title": "Speckle enumeration of a grid is exact", "statement": "For sp != ssp, SitesGrid.gen_speckle(ssp,(d,w,l),sp,noa) yields exactly the d*w*l grids over {ssp,sp} with exactly noa entries sp, each exactly once, C(dwl,noa) in total.", "quantifier": "every size, every noa, every pair of species", "why_tests_cant": "the set enumerated is exponential in the size", "anchors": ["ababe/stru/scaffold.py:SitesGrid.gen_speckle", "ababe/stru/scaffold.py:CStru.gen_speckle"]}
{"id": "C07", "title": "Grid structure to cell conversion", "statement": "CStru.get_cell() scales lattice row i by dimension i, lists d*w*l pairwise distinct positions with all coordinates in [0,1), and pairs position (c/d,b/w,a/l) with the atomic number of grid entry [c,b,a]; get_id_matrix of the result gives the grid's array back; get_midpoint() is a valid grid position.", "quantifier": "every grid size >= 1 and every content", "why_tests_cant": "all sizes", "anchors": ["ababe/stru/scaffold.py:CStru.get_cell", "ababe/stru/scaffold.py:CStru.get_id_matrix", "ababe/stru/scaffold.py:CStru.get_midpoint"]}
{"id": "C08", "title": "Neighbour query returns the lattice points within delta", "statement": "get_neighbors(pos, delta) returns exactly the grid positions other than pos whose Cartesian distance to pos is <= delta (it never contains pos and is symmetric).", "quantifier": "all grid sizes, lattices, positions and radii", "why_tests_cant": "all lattices/radii; degenerate result sizes 0 and 1 need to be covered", "anchors": ["ababe/stru/scaffold.py:CStru.get_neighbors", "ababe/stru/scaffold2d.py:CStru2d.get_neighbors"]}
{"id": "C09", "title": "Cell construction only reorders sites", "statement": "GeneralCell(lattice, positions, numbers) keeps the lattice and stores a rearrangement of the given (position, number) pairs; it never loses, duplicates or re-pairs a site. It raises IndexError when there are fewer numbers than positions and rejects an empty site list.", "quantifier": "all site lists", "why_tests_cant": "all lists and orders", "anchors": ["ababe/stru/scaffold.py:GeneralCell.__init__", "ababe/stru/scaffold.py:GeneralCell._get_new_id_seq"]}
{"id": "C10", "title": "Sites are stored in wrapped coordinate order", "statement": "The stored sites are sorted lexicographically by (x,y,z) reduced modulo 1 and rounded to 3 decimals, ties kept in input order; every reduced coordinate lies in [0,1).", "quantifier": "all site lists, including negative and >1 coordinates", "why_tests_cant": "rounding boundary and ties are measure-zero for random tests", "anchors": ["ababe/stru/scaffold.py:GeneralCell._get_new_id_seq"]}
{"id": "C11", "title": "Cell identity does not depend on input order or on the periodic image chosen", "statement": "If sites have pairwise distinct reduced coordinates, then permuting the input sites and moving any site by an integer lattice vector yields the same numbers array (hence the same id) and the same reduced coordinates.", "quantifier": "all permutations and integer shifts", "why_tests_cant": "n! permutations and infinitely many shifts", "anchors": ["ababe/stru/scaffold.py:GeneralCell.id", "ababe/stru/scaffold.py:GeneralCell.__init__"]}
{"id": "C12", "title": "Re-building a cell from its own data is the identity", "statement": "GeneralCell(c.lattice, c.positions, m) has positions == c.positions and numbers == m for every numbers array m of the right size. Consequently all cells made by an occupation generator share the initial cell's positions in the same order.", "quantifier": "every cell and every decoration", "why_tests_cant": "all cells", "anchors": ["ababe/stru/scaffold.py:GeneralCell.__init__", "ababe/stru/sogen.py:OccupyGenerator.gen_dup_unitary"]}
{"id": "C13", "title": "Symmetry permutations realise the symmetry operations", "statement": "If the operations returned by spglib map the set of sites to itself modulo the lattice and sites have distinct reduced coordinates, every row p of get_symmetry_permutation() is a permutation of the sites and site p[i] is the one the operation moves onto site i.", "quantifier": "all cells, all operation lists satisfying the contract", "why_tests_cant": "all crystals and groups", "anchors": ["ababe/stru/scaffold.py:GeneralCell.get_symmetry_permutation"]}
{"id": "C14", "title": "is_equivalent is geometric equivalence", "statement": "Under the same contract with operations forming a group modulo the lattice, is_equivalent(a,b) holds iff some operation maps the decorated crystal a onto the decorated crystal b, and it is reflexive, symmetric and transitive.", "quantifier": "all cells with distinct reduced coordinates, all pairs/triples of decorations of the cell", "why_tests_cant": "all decorations, all groups", "anchors": ["ababe/stru/sogen.py:OccupyGenerator.is_equivalent"]}
{"id": "C15", "title": "Unitary substitution enumeration is exact", "statement": "gen_dup_unitary(n, sp) yields exactly the decorations obtained by overwriting an n-subset of all sites with sp, one per subset, C(N,n) in total; if sp does not occur initially each has exactly n sp-sites and they are pairwise different.", "quantifier": "all cells, n and species", "why_tests_cant": "exponential output", "anchors": ["ababe/stru/sogen.py:OccupyGenerator.gen_dup_unitary"]}
{"id": "C16", "title": "Element substitution enumeration is exact", "statement": "gen_dup_of_ele(ele, n, sp), ele != sp, yields exactly once each decoration in which exactly n of the sites initially holding ele hold sp and all other sites are unchanged.", "quantifier": "all cells, n and species", "why_tests_cant": "exponential output", "anchors": ["ababe/stru/sogen.py:OccupyGenerator.gen_dup_of_ele"]}
{"id": "C17", "title": "Wyckoff substitution enumeration is exact", "statement": "gen_dup(wy, n, sp) overwrites exactly n sites of Wyckoff letter wy with sp, one structure per n-subset, leaving sites with other letters untouched.", "quantifier": "all cells, letters, n", "why_tests_cant": "exponential output", "anchors": ["ababe/stru/sogen.py:OccupyGenerator.gen_dup"]}
{"id": "C18", "title": "Ternary substitution enumeration is exact", "statement": "The ternary enumeration underlying gen_nodup_trinary_alloy(sp1,n1,sp2,n2) contains, for every ordered pair of disjoint site sets of sizes n1 and n2, the decoration with sp1 on the first, sp2 on the second and the initial elements elsewhere, and nothing else; C(N,n1)*C(N-n1,n2) in total.", "quantifier": "all cells, n1, n2", "why_tests_cant": "exponential output", "anchors": ["ababe/stru/sogen.py:OccupyGenerator._gen_dup_trinary_alloy"]}
{"id": "C19", "title": "Deduplication never emits two equivalent structures", "statement": "Whatever the 64-bit hash does (collisions included), for two structures emitted by gen_2nodup_gen, the later one is not a symmetry image of the earlier one; output order follows input order and every emitted structure comes from the input.", "quantifier": "all inputs, all permutation tables, all hash functions", "why_tests_cant": "all inputs and hash behaviours", "anchors": ["ababe/stru/sogen.py:OccupyGenerator.gen_2nodup_gen", "ababe/stru/sogen.py:OccupyGenerator._update_isoset"]}
{"id": "C20", "title": "Deduplication loses no equivalence class", "statement": "If the hash is injective on the symmetry images of the input structures, and the table contains the identity, every input structure is a symmetry image of some emitted structure, which is the first of its class.", "quantifier": "all inputs, all tables", "why_tests_cant": "all inputs", "anchors": ["ababe/stru/sogen.py:OccupyGenerator.gen_2nodup_gen"]}
{"id": "C21", "title": "Non-duplicate generators return one structure per symmetry class", "statement": "gen_nodup_unitary, gen_nodup, gen_nodup_of_ele and gen_nodup_trinary_alloy output exactly one representative per equivalence class of the corresponding substitution set (no collision, group table).", "quantifier": "all cells, element choices and counts", "why_tests_cant": "number of classes is unbounded", "anchors": ["ababe/stru/sogen.py:OccupyGenerator.gen_nodup_unitary", "ababe/stru/sogen.py:OccupyGenerator.gen_nodup", "ababe/stru/sogen.py:OccupyGenerator.gen_nodup_of_ele", "ababe/stru/sogen.py:OccupyGenerator.gen_nodup_trinary_alloy"]}
{"id": "C22", "title": "Adding one speckle", "statement": "gen_add_one_speckle_unitary / gen_add_one_speckle / gen_add_one_speckle_of_ele emit exactly the decorations obtained from an input structure by turning one admissible site (any / given Wyckoff letter / given element; not already sp) into sp, each emitted decoration only once.", "quantifier": "all input generators; that nothing is missed, for hashes without collisions among the candidates", "why_tests_cant": "all inputs", "anchors": ["ababe/stru/sogen.py:OccupyGenerator.gen_add_one_speckle_unitary", "ababe/stru/sogen.py:OccupyGenerator.gen_add_one_speckle", "ababe/stru/sogen.py:OccupyGenerator.gen_add_one_speckle_of_ele"]}
{"id": "C23", "title": "Incremental generation reaches every structure", "statement": "In all_speckle_gen_unitary / all_speckle_gen / all_speckle_gen_of_ele the k-th generator yields exactly one representative of every class of structures obtained by turning k admissible sites of the initial cell into sp.", "quantifier": "all cells, all depths k, symmetry operations as in C13 (for the Wyckoff variant keeping the letters), hashes without collisions on the images that occur", "why_tests_cant": "induction over levels; exponential sets", "anchors": ["ababe/stru/sogen.py:OccupyGenerator.all_speckle_gen_unitary", "ababe/stru/sogen.py:OccupyGenerator.all_speckle_gen", "ababe/stru/sogen.py:OccupyGenerator.all_speckle_gen_of_ele"]}
{"id": "C24", "title": "Incremental and direct generation agree", "statement": "For sp absent from the initial cell, level n of all_speckle_gen_of_ele(N, ele, sp) and gen_nodup_of_ele(ele, n, sp) have the same number of structures and each structure of one is equivalent to exactly one of the other.", "quantifier": "all cells and n, hashes without collisions on the images that occur", "why_tests_cant": "cross-method agreement for all inputs", "anchors": ["ababe/stru/sogen.py:OccupyGenerator.all_speckle_gen_of_ele", "ababe/stru/sogen.py:OccupyGenerator.gen_nodup_of_ele"]}
{"id": "C25", "title": "Lazy consumption order does not matter", "statement": "However next() calls on the per-level generators are interleaved (skipping, abandoning or alternating levels), each level's generator yields a prefix of the same fixed sequence, namely the one eager evaluation gives.", "quantifier": "all schedules of next() calls", "why_tests_cant": "unboundedly many interleavings", "anchors": ["ababe/stru/sogen.py:OccupyGenerator.all_speckle_gen_of_ele", "ababe/stru/sogen.py:OccupyGenerator.gen_2nodup_gen"]}
{"id": "C26", "title": "Substitution count bookkeeping", "statement": "Every structure in the k-th generator of all_speckle_gen_* has exactly (initial sp count + k) sp-sites, as reported by get_speckle_num, and the same number of sites and lattice as the initial cell; the number of generators is max(0, n - initial sp count).", "quantifier": "all cells and levels", "why_tests_cant": "all levels", "anchors": ["ababe/stru/scaffold.py:GeneralCell.get_speckle_num", "ababe/stru/sogen.py:OccupyGenerator.all_speckle_gen_unitary"]}
{"id": "C27", "title": "Divisor enumeration", "statement": "The factor set used to build Hermite matrices of n is exactly the set of positive divisors of n for n >= 1; n = 0 raises.", "quantifier": "all n", "why_tests_cant": "all n", "anchors": ["ababe/stru/grid.py:SuperLatticeGenerator.hnfs_from_n_dups"]}
{"id": "C28", "title": "Hermite normal form enumeration is exact", "statement": "hnfs_from_n_dups(cell, n) lists exactly the integer matrices [[a,b,d],[0,c,e],[0,0,f]] with a*c*f = n, 0<=b<c, 0<=d,e<f, each once, whatever the iteration order of Python sets.", "quantifier": "all n >= 1", "why_tests_cant": "all n", "anchors": ["ababe/stru/grid.py:SuperLatticeGenerator.hnfs_from_n_dups"]}
{"id": "C29", "title": "Every superlattice of index n is listed exactly once", "statement": "For every subgroup of Z^3 of index n there is exactly one matrix in hnfs_from_n_dups(cell, n) whose rows generate it, and every listed matrix generates a subgroup of index n.", "quantifier": "all subgroups of Z^3 of all finite indices", "why_tests_cant": "infinitely many sublattices", "anchors": ["ababe/stru/grid.py:SuperLatticeGenerator.hnfs_from_n_dups"]}
{"id": "C30", "title": "Superlattice equality test", "statement": "For superlattices of the same index n, H1 == H2 holds iff some rotation of the parent cell maps one sublattice onto the other.", "quantifier": "all n, all HNF pairs, all rotation lists", "why_tests_cant": "needs all n; fails only for large n", "anchors": ["ababe/stru/grid.py:SuperLatticeCell.__eq__"]}
{"id": "C31", "title": "Non-duplicate superlattices form a transversal", "statement": "hnfs_from_n(cell, n) contains, for every index-n sublattice, exactly one listed superlattice related to it by a rotation of the parent's point group.", "quantifier": "all n < 2000 (the tolerance bound of C30), all finite rotation groups", "why_tests_cant": "all n and groups", "anchors": ["ababe/stru/grid.py:SuperLatticeGenerator.hnfs_from_n"]}
{"id": "C32", "title": "Interior points of a superlattice cell", "statement": "get_frac_from_H(H) returns exactly n = det H fractional points, all in [0,1)^3, pairwise incongruent, one for each coset of Z^3 modulo the superlattice.", "quantifier": "all upper triangular H with non-negative entries and positive diagonal, det below the tolerance bound 100000", "why_tests_cant": "all H", "anchors": ["ababe/stru/grid.py:SuperLatticeCell.get_frac_from_H", "ababe/stru/scaffold.py:GeneralCell.get_frac_from_mat"]}
{"id": "C33", "title": "A superlattice cell describes the same crystal", "statement": "to_general_cell() yields N*n sites with matching numbers such that the infinite set of (Cartesian position, element) it generates equals that of the unit cell, with no site repeated, and cell volume multiplied by n.", "quantifier": "all unit cells, all H with det below the tolerance bound 100000", "why_tests_cant": "infinite crystals", "anchors": ["ababe/stru/grid.py:SuperLatticeCell.to_general_cell"]}
{"id": "C34", "title": "A supercell describes the same crystal", "statement": "GeneralCell.supercell(M) for a positive diagonal (or non-negative upper triangular) M yields the same infinite decorated crystal, with N*det M sites.", "quantifier": "all cells and scale matrices in the class, det below the tolerance bound 100000", "why_tests_cant": "infinite crystals", "anchors": ["ababe/stru/scaffold.py:GeneralCell.supercell", "ababe/cmdline/runatilib.py:supcell"]}
{"id": "C35", "title": "2D superlattice enumeration is exact", "statement": "SuperLatticeGenerator2D.hnfs_from_n_dups(cell, n) lists exactly once a matrix for every index-n subgroup of Z^3 that contains (0,0,1) and nothing else.", "quantifier": "all n, all such subgroups", "why_tests_cant": "infinitely many", "anchors": ["ababe/stru/grid.py:SuperLatticeGenerator2D.hnfs_from_n_dups"]}
{"id": "C36", "title": "Minimum-distance restriction checks neighbouring images", "statement": "MinDistanceRestriction((ele,d)).is_satisfied(cell) is True iff every two ele atoms, over all periodic image offsets in {-1,0,1}^3 (an atom against itself included, zero offset excluded), are more than d apart; it raises ValueError iff the cell has no ele atom.", "quantifier": "all cells and thresholds", "why_tests_cant": "all lattices and thresholds", "anchors": ["ababe/stru/restriction.py:MinDistanceRestriction.is_satisfied", "ababe/stru/scaffold.py:GeneralCell.supercell", "ababe/stru/scaffold.py:GeneralCell.get_cartesian"]}
{"id": "C37", "title": "Minimum-distance restriction bounds the true periodic distance", "statement": "If is_satisfied returns True then no two ele atoms of the infinite crystal are within d of each other.", "quantifier": "all cells", "why_tests_cant": "fails only for skewed cells", "anchors": ["ababe/stru/restriction.py:MinDistanceRestriction.is_satisfied"]}
{"id": "C38", "title": "Space-group restriction selects by space-group number", "statement": "SpaceGroupRestriction(l).is_satisfied(cell) is True iff the number in parentheses of the cell's space group ('Symbol (N)') is in l.", "quantifier": "all space-group strings", "why_tests_cant": "depends on the symbol's characters", "anchors": ["ababe/stru/restriction.py:SpaceGroupRestriction.is_satisfied"]}
{"id": "C39", "title": "Sphere query", "statement": "get_points_incell_insphere(center, r, ele) returns exactly the indices of sites of element ele (any if None) having a periodic image with offset in {-1,0,1}^3 closer than r to center.", "quantifier": "all cells, centers, radii", "why_tests_cant": "all geometry", "anchors": ["ababe/stru/scaffold.py:ModifiedCell.get_points_incell_insphere", "ababe/stru/scaffold.py:ModifiedCell.in_euclidean_discance"]}
{"id": "C40", "title": "Center-based removal", "statement": "AtomRemoveClarifier.clarify keeps, in order and unchanged, exactly the sites not within r of any center (or not of the given element); it is idempotent and independent of the order of centers.", "quantifier": "all cells, center lists, radii", "why_tests_cant": "all histories of removals", "anchors": ["ababe/stru/clarifier.py:AtomRemoveClarifier.clarify", "ababe/stru/scaffold.py:ModifiedCell.remove_sites"]}
{"id": "C41", "title": "Element-based removal uses the original centers", "statement": "VerboseAtomRemoveClarifier.clarify keeps, in order, exactly the sites that are not (of the removed element and within r of some site of the center element of the original cell), even though it removes while iterating.", "quantifier": "all cells", "why_tests_cant": "iteration-while-removing only fails for particular layouts", "anchors": ["ababe/stru/clarifier.py:VerboseAtomRemoveClarifier.clarify", "ababe/stru/scaffold.py:ModifiedCell.__iter__", "ababe/stru/scaffold.py:ModifiedCell.remove_sites"]}
{"id": "C42", "title": "ModifiedCell behaves as a list of sites", "statement": "Any sequence of append, insert, pop, extend, item assignment/deletion/read, remove_sites, len and iteration on a ModifiedCell has the results of the same operations on a plain Python list of sites (including negative indices and IndexError).", "quantifier": "all operation histories", "why_tests_cant": "all histories", "anchors": ["ababe/stru/scaffold.py:ModifiedCell"]}
{"id": "C43", "title": "ModifiedCell <-> GeneralCell conversion", "statement": "ModifiedCell.from_gcell(c).to_gcell() equals c (lattice, positions, numbers) for every cell of known elements, and the ModifiedCell lists the sites in the cell's order; it raises IndexError iff some number is unknown.", "quantifier": "all cells", "why_tests_cant": "all cells", "anchors": ["ababe/stru/scaffold.py:ModifiedCell.from_gcell", "ababe/stru/scaffold.py:ModifiedCell.to_gcell"]}
{"id": "C44", "title": "Translating a site", "statement": "translate_sites(i, v) moves the Cartesian position of the i-th site by exactly v (up to rounding) and touches no other site's position nor any element; perturb(d) moves every site by a vector of length |d| and changes no element or lattice.", "quantifier": "all cells with invertible lattice, all vectors/random draws", "why_tests_cant": "all random draws", "anchors": ["ababe/stru/scaffold.py:ModifiedCell.translate_sites", "ababe/stru/scaffold.py:ModifiedCell.perturb"]}
{"id": "C45", "title": "copy() is independent, shared Site objects are not", "statement": "After m2 = m.copy(), no sequence of mutations of m2 (site translation included) is visible through m; while a Site appended to two cells is shared by both.", "quantifier": "all cells, all mutation histories", "why_tests_cant": "aliasing", "anchors": ["ababe/stru/scaffold.py:ModifiedCell.copy", "ababe/stru/scaffold.py:ModifiedCell.append"]}
{"id": "C46", "title": "POSCAR write/read round trip", "statement": "Reading back the text written by VaspOutput gives lattice and positions rounded (6 then 4 decimals) with the same elements, ghosts removed and sites stably sorted by atomic number, for every cell with at least one real atom.", "quantifier": "all cells of known elements", "why_tests_cant": "all texts/values", "anchors": ["ababe/io/vasp.py:VaspOutput.get_string", "ababe/io/vasp.py:VaspInput.from_string"]}
{"id": "C47", "title": "POSCAR internal consistency", "statement": "In every POSCAR written, the species line lists the occurring real elements once in increasing atomic number, the counts line gives their multiplicities, and the coordinate lines come in blocks matching these counts, one line per real atom, none for ghosts.", "quantifier": "all cells of known elements", "why_tests_cant": "all decorations", "anchors": ["ababe/io/vasp.py:VaspOutput.get_string", "ababe/stru/io.py:VaspPOSCAR.get_string"]}
{"id": "C48", "title": "Cell comment", "statement": "comment concatenates symbol and multiplicity of each real element in increasing atomic number, and is the empty string iff all sites are ghosts.", "quantifier": "all cells of known elements", "why_tests_cant": "all decorations", "anchors": ["ababe/stru/scaffold.py:GeneralCell.comment"]}
{"id": "C49", "title": "YAML data round trip", "statement": "Reading the mapping written by YamlOutput reproduces numbers exactly (ghosts included), and lattice and positions rounded to 6 then 4 decimals; reading scales the lattice by zoom.", "quantifier": "all cells of known elements, all zoom factors", "why_tests_cant": "all values", "anchors": ["ababe/io/yaml.py:YamlOutput.get_string", "ababe/io/yaml.py:YamlInput.from_string"]}
{"id": "C50", "title": "Lattice scale factor", "statement": "VaspInput multiplies the lattice by a non-negative scale factor; a negative factor -V rescales it so that the cell volume becomes exactly V.", "quantifier": "all lattices and scale factors", "why_tests_cant": "all reals", "anchors": ["ababe/io/vasp.py:VaspInput.from_string"]}
{"id": "C51", "title": "File format dispatch", "statement": "write_file/from_file choose YAML iff fmt is 'yaml' or the lower-cased name contains '.yaml', otherwise VASP iff fmt is 'vasp' or the name ends in '.vasp' (any case) or contains 'POSCAR', and otherwise fail; an explicit format is honoured.", "quantifier": "all file names and fmt strings (cells of known elements)", "why_tests_cant": "all strings", "anchors": ["ababe/io/io.py:GeneralIO.write_file", "ababe/io/io.py:GeneralIO.from_file"]}
{"id": "C52", "title": "RandomPopSet is a set", "statement": "Any sequence of add/push/discard/remove/random_pop/in/len/iteration on a RandomPopSet behaves as on a mathematical set; the internal index always matches the list.", "quantifier": "all operation histories, all random choices", "why_tests_cant": "all histories", "anchors": ["ababe/mlearn/dsutils.py:RandomPopSet"]}
{"id": "C53", "title": "random_pop removes what it returns", "statement": "On a non-empty set random_pop returns a member and removes exactly it, for every random index; every member can be returned; on the empty set it returns None and changes nothing.", "quantifier": "all sets, all random indices", "why_tests_cant": "all random outcomes", "anchors": ["ababe/mlearn/dsutils.py:RandomPopSet.random_pop", "ababe/mlearn/dsutils.py:RandomPopSet.get_random"]}
{"id": "C54", "title": "Random walk arrangement", "statement": "When random_walk_arrange returns, the path has no repeated position, starts at the start position, has the goal length, and each later position is a neighbour of an earlier one.", "quantifier": "all problems whose neighbour sets exclude the position itself, all random choices", "why_tests_cant": "all random choices", "anchors": ["ababe/mlearn/arrange.py:random_walk_arrange", "ababe/mlearn/arrangeAgent.py:Boron2dArrangeProblem"]}
{"id": "C55", "title": "MCTS node value is the mean of its evaluations", "statement": "After any sequence of playouts, a node's Q is the arithmetic mean of the leaf values backed up through it and n_visits is their number.", "quantifier": "all update histories", "why_tests_cant": "all histories", "anchors": ["ababe/mlearn/mcts.py:TreeNode.update", "ababe/mlearn/mcts.py:TreeNode.update_recursive"]}
{"id": "C56", "title": "MCTS visit counts are consistent", "statement": "After any sequence of playouts from a fresh tree, a node's visit count is at least the sum of its children's, equals the number of playouts whose descent passed through it, and the root's equals the number of playouts.", "quantifier": "all policies, value functions and playout counts; on Python 2 (dict.iteritems; on Python 3 select raises AttributeError, C57)", "why_tests_cant": "all histories", "anchors": ["ababe/mlearn/mcts.py:MCTS._playout", "ababe/mlearn/mcts.py:TreeNode.update_recursive"]}
{"id": "C57", "title": "MCTS expansion preserves existing children", "statement": "expand never replaces or re-initialises an existing child, adds each missing action once with its first-listed prior, and get_move returns a child of the root with maximal visit count.", "quantifier": "all trees and action lists; get_move on Python 2 (on Python 3 it raises AttributeError)", "why_tests_cant": "all histories", "anchors": ["ababe/mlearn/mcts.py:TreeNode.expand", "ababe/mlearn/mcts.py:MCTS.get_move"]}
{"id": "C58", "title": "MCTS tree reuse", "statement": "update_with_move(a) keeps the statistics of the whole subtree under a and makes it the root (or starts afresh if a was never expanded); later backups never touch nodes above the new root.", "quantifier": "all trees, moves and later histories", "why_tests_cant": "all histories", "anchors": ["ababe/mlearn/mcts.py:MCTS.update_with_move"]}
{"id": "C59", "title": "The buckyball permutation table is a group", "statement": "The 120 rows of the shipped table are pairwise different permutations of the 60 sites containing the identity and closed under composition and inversion.", "quantifier": "all rows / pairs of rows", "why_tests_cant": "14400 pairs", "anchors": ["ababe/stru/buckyball.py:Structure.get_symmetry_permutation", "ababe/stru/bucky_permu_table.npy"]}
{"id": "C60", "title": "Buckyball table rows are symmetries of the molecule", "statement": "Every row of the table maps the molecule's site list (in the order Structure stores it) onto itself preserving bond distances.", "quantifier": "all rows and site pairs", "why_tests_cant": "120*3600 pairs", "anchors": ["ababe/stru/buckyball.py:Structure.__init__", "ababe/stru/buckyball.json"]}
{"id": "C61", "title": "Buckyball incremental generation", "statement": "Structure.all_speckle_gen(b, n, sp) yields first b, then for each k one representative per class (w.r.t. the table) of decorations with k more sp-sites, provided the 32-bit hash does not collide on them; never two equivalent ones in any case.", "quantifier": "all initial decorations, levels and hash functions", "why_tests_cant": "exponential sets", "anchors": ["ababe/stru/buckyball.py:Structure.all_speckle_gen", "ababe/stru/buckyball.py:Structure.to_nodup_generator", "ababe/stru/buckyball.py:Structure.add_one_speckle_generator"]}
{"id": "C62", "title": "Grid structure generation without duplicates", "statement": "gen_nodup_cstru(lattice, sea, size, speckle, num) yields grids with exactly num speckles, one per class under the symmetry permutations of the empty grid.", "quantifier": "all sizes up to 990 in each direction (false at 991 and at every size beyond 1000, where two layers share their 3-decimal sort key), all counts, symmetry operations as in C13", "why_tests_cant": "exponential sets", "anchors": ["ababe/stru/sogen.py:gen_nodup_cstru", "ababe/stru/sogen.py:_update_isoset", "ababe/stru/sogen.py:_get_atom_seq_identifier"]}
{"id": "C63", "title": "Structure equality under operations", "statement": "is_stru_equal(A, B, ops) is True iff some operation in ops applied to B gives, after wrapping and sorting, the atom sequence of A.", "quantifier": "all structures and operation lists", "why_tests_cant": "fails only beyond 1000 atoms", "anchors": ["ababe/stru/sogen.py:is_stru_equal", "ababe/stru/sogen.py:_get_id_seq"]}
{"id": "C64", "title": "Speckle disjunction restriction is periodic", "statement": "For the lattices bcc, fcc, scc and triflat, is_speckle_disjunct(s, sp) is True iff no two sp sites of the infinite periodic grid are within distance 1.01.", "quantifier": "all grid sizes and contents", "why_tests_cant": "periodic images at all boundaries", "anchors": ["ababe/stru/sogen.py:is_speckle_disjunct", "ababe/stru/sogen.py:_pool_sites", "ababe/stru/sogen.py:_min_dist", "ababe/stru/sogen.py:lat_dict"]}
{"id": "C65", "title": "Ternary application covers all compositions", "statement": "ocumakert enumerates exactly the composition pairs (n1,n2) with n1,n2 >= 1 and n1+n2 < n, each once.", "quantifier": "all n; for completeness of the structures, symmetry operations as in C13 and collision-free hashes", "why_tests_cant": "all n", "anchors": ["ababe/cmdline/apps/occupymakert.py:App.run"]}
{"id": "C66", "title": "Every generated structure ends up in its own file", "statement": "After ocumaker/ocubiter/suplat finish, the output directory contains one file per structure that satisfied the filters, with that structure's content.", "quantifier": "all structure sequences and all random suffixes", "why_tests_cant": "random file-name collisions", "anchors": ["ababe/cmdline/apps/occupymaker.py:App.run", "ababe/cmdline/apps/occupybiter.py:App.run", "ababe/cmdline/apps/superlattice.py:App.run"]}
{"id": "C67", "title": "Application filters", "statement": "ocubiter/ocumaker/ocutenter write a structure iff it passes the primitivity filter (when enabled) and the first distance restriction given (when given).", "quantifier": "all option combinations and structures", "why_tests_cant": "all combinations", "anchors": ["ababe/cmdline/apps/occupybiter.py:App.run", "ababe/cmdline/apps/occupytenter.py:App.run", "ababe/cmdline/apps/occupymaker.py:App.run"]}
{"id": "C68", "title": "Equality of ModifiedCells", "statement": "cell == cell.copy() always; for two cells with equally many sites, == is True iff lattice entries, positions and atomic numbers agree entry by entry within numpy's tolerance (1e-8 + 1e-5|b|); cells with different numbers of sites are different.", "quantifier": "all cells", "why_tests_cant": "sizes that broadcast", "anchors": ["ababe/stru/scaffold.py:ModifiedCell.__eq__"]}
{"id": "C69", "title": "Assigning to a site", "statement": "site.element = e / site.position = p changes that attribute of that site object in every cell that holds it, and nothing else.", "quantifier": "all heaps, sites and values", "why_tests_cant": "aliasing patterns", "anchors": ["ababe/stru/site.py:Site.element", "ababe/stru/site.py:Site.position"]}
{"id": "C70", "title": "Inherited list methods of ModifiedCell", "statement": "reverse, index, remove, count, in, reversed and clear of a ModifiedCell act like the same operations on the plain list of its sites compared with Site equality.", "quantifier": "all cells and sites", "why_tests_cant": "all lengths and duplicates", "anchors": ["ababe/stru/scaffold.py:ModifiedCell.__getitem__", "ababe/stru/scaffold.py:ModifiedCell.__setitem__", "ababe/stru/scaffold.py:ModifiedCell.__delitem__"]}
{"id": "C71", "title": "MCTS descent is greedy", "statement": "Every playout of the search follows, from the root, at each expanded node a child maximising (mean backed-up value + exploration bonus), stopping at the depth limit or at a state without actions.", "quantifier": "all trees, games, depths and histories", "why_tests_cant": "all histories", "anchors": ["ababe/mlearn/mcts.py:MCTS._playout", "ababe/mlearn/mcts.py:TreeNode.select"]}
{"id": "C72", "title": "MCTS leaf values", "statement": "The value backed up by a playout is (1-lmbda)*value_fn(leaf) + lmbda*rollout(leaf) with the rollout in {-1,0,1}; if |value_fn| <= 1 and 0 <= lmbda <= 1 every node's Q stays within [-1,1].", "quantifier": "all games and histories", "why_tests_cant": "all histories", "anchors": ["ababe/mlearn/mcts.py:MCTS._playout", "ababe/mlearn/mcts.py:MCTS._evaluate_rollout"]}
{"id": "C73", "title": "Extending a cell by itself", "statement": "cell.extend(cell) on a cell with at least one site never returns (it keeps appending); on an empty cell it returns immediately.", "quantifier": "all cells and step counts", "why_tests_cant": "non-termination", "anchors": ["ababe/stru/scaffold.py:ModifiedCell.insert"]}
{"id": "C74", "title": "Direct buckyball generation", "statement": "gen_speckle(sp, n) yields every carbon/sp decoration of the 60 sites with n sp sites exactly once (60 choose n), and, without hash collisions, filtering it gives as many structures as the incremental generation, each the image of one of the other. help_add_one_speckle(l, sp) yields exactly the decorations with one site not holding sp changed to sp, each once.", "quantifier": "all species other than carbon and all n", "why_tests_cant": "numbers like 60 choose 30", "anchors": ["ababe/stru/buckyball.py:Structure.gen_speckle", "ababe/stru/buckyball.py:Structure.all_speckle_gen", "ababe/stru/buckyball.py:Structure.to_nodup_generator", "ababe/stru/buckyball.py:Structure.help_add_one_speckle"]}
{"id": "C75", "title": "Applications cover all inequivalent structures", "statement": "Given a correct symmetry operation list, a finished ocubiter run goes through exactly one representative of every symmetry class of ways to replace the asked number of target atoms, and a finished ocumaker run does so for every count 1, 2, ... up to the asked number; lattice and sites are those of the input cell.", "quantifier": "all input files whose cell has distinct reduced coordinates, options, symmetry lists, collision-free hashes", "why_tests_cant": "numbers of structures", "anchors": ["ababe/cmdline/apps/occupybiter.py:App.run", "ababe/cmdline/apps/occupymaker.py:App.run"]}
{"id": "C76", "title": "Applications write the format asked for", "statement": "A structure written by ocumaker/ocubiter with output mode yaml is a YAML mapping; with output mode vasp it is a POSCAR iff no part of its path contains '.yaml'.", "quantifier": "all working directories, comments, structures", "why_tests_cant": "paths with .yaml in a directory name", "anchors": ["ababe/cmdline/apps/occupymaker.py:App.run", "ababe/cmdline/apps/occupybiter.py:App.run", "ababe/io/io.py:GeneralIO.write_file"]}
{"id": "C77", "title": "Existing output directories and other files", "statement": "If its output path exists, each of the four occupation applications raises NameError and changes no file; and whether or not a run finishes, files that are not structure files of the new output directory keep their content.", "quantifier": "all file systems, options, structures", "why_tests_cant": "failure midway", "anchors": ["ababe/cmdline/apps/occupymaker.py:App.run", "ababe/cmdline/apps/occupybiter.py:App.run", "ababe/cmdline/apps/occupytenter.py:App.run", "ababe/cmdline/apps/occupymakert.py:App.run"]}
{"id": "C78", "title": "Refined and shaped cells keep the crystal", "statement": "get_refined_cell and get_refined_pcell return exactly the crystal spglib's standardisation answers with (TypeError if it fails). get_shaped_cell: if the standardisation of the cell with every atom labelled by its index is that labelled crystal moved by a map of space, the result has the new lattice, the same number of atoms of every element, and is the original crystal moved by that map.", "quantifier": "all cells, answers of the standardisation and maps", "why_tests_cant": "atoms can be relabelled or dropped in the index round trip", "anchors": ["ababe/stru/scaffold.py:GeneralCell.get_refined_cell", "ababe/stru/scaffold.py:GeneralCell.get_refined_pcell", "ababe/stru/scaffold.py:GeneralCell.get_shaped_cell"]}
{"id": "C79", "title": "Commands on one structure", "statement": "atclear writes <stem>_ACLR.vasp holding the POSCAR of the cell without exactly the atoms of the given element that have a centre atom closer than the radius (ValueError if none is left); perturb writes <stem>_PURB.vasp with every atom displaced by the given Cartesian length; supcell puts out the a x b x c enlarged cell of the same crystal and pcell the standardised primitive cell, printed or in a file whose format is the one asked for, whatever the input path.", "quantifier": "all input files of known elements, element pairs, radii, scales (product below 100000), random vectors and output modes", "why_tests_cant": "all cells and paths", "anchors": ["ababe/cmdline/runatilib.py:atclear", "ababe/cmdline/runatilib.py:perturb", "ababe/cmdline/runatilib.py:supcell", "ababe/cmdline/runatilib.py:pcell", "ababe/cmdline/apps/atomclarifier.py:App.run", "ababe/cmdline/apps/atomperturb.py:App.run"]}
{"id": "C80", "title": "Two-dimensional grids", "statement": "CStru2d.get_neighbors(pos, delta): KeyError outside the grid; with at least two other grid points within Cartesian distance delta the result is exactly their set; with exactly one it is the set of that point's coordinates; with none TypeError (ValueError on a one-point grid). sea(w,l,sp) has size w x l, middle (w//2,l//2) and array full of sp.Z (IndexError for w <= 0); grids are equal iff their atomic numbers agree row by row; from_array always raises.", "quantifier": "all lattices, grid sizes, positions, radii, species", "why_tests_cant": "all radii and lattices; degenerate result sizes", "anchors": ["ababe/stru/scaffold2d.py:CStru2d.get_neighbors", "ababe/stru/scaffold2d.py:SitesGrid2d.sea", "ababe/stru/scaffold2d.py:SitesGrid2d.get_array", "ababe/stru/scaffold2d.py:SitesGrid2d.__eq__", "ababe/stru/scaffold2d.py:SitesGrid2d.from_array"]}
{"id": "C81", "title": "Shipped arrangement problems always reach their goal", "statement": "For n >= 2, random_walk_arrange on Boron2dArrangeProblem(n) and FCC3dArrangeProblem(n) returns n pairwise different positions of the n^2 (n^3) grid, beginning in the middle, each later one adjacent to an earlier one (one of the six triangular-lattice directions; distance <= 2.1 on the fcc lattice). n = 1 raises ValueError, n <= 0 IndexError.", "quantifier": "all n, all random choices, all set iteration orders", "why_tests_cant": "random walk with unboundedly many outcomes", "anchors": ["ababe/mlearn/arrangeAgent.py:Boron2dArrangeProblem", "ababe/mlearn/arrangeAgent.py:FCC3dArrangeProblem", "ababe/mlearn/arrange.py:random_walk_arrange"]}
{"id": "C82", "title": "Number of structures generated", "statement": "The number of structures yielded by gen_nodup_unitary, gen_nodup_of_ele, gen_nodup and gen_nodup_trinary_alloy, times the number of site permutations brought about by the symmetry operations, equals the sum over these permutations of the number of candidate structures that the permutation leaves unchanged (Cauchy-Frobenius).", "quantifier": "all cells, correct operation lists that keep elements (Wyckoff letters), counts and species, collision-free hash", "why_tests_cant": "counts over unbounded cells", "anchors": ["ababe/stru/sogen.py:OccupyGenerator.gen_nodup_unitary", "ababe/stru/sogen.py:OccupyGenerator.gen_nodup_of_ele", "ababe/stru/sogen.py:OccupyGenerator.gen_nodup", "ababe/stru/sogen.py:OccupyGenerator.gen_nodup_trinary_alloy"]}
{"id": "C83", "title": "Numbers of substituted C60 isomers", "statement": "As long as the digests of the decorations do not collide, level k of Structure.all_speckle_gen on C60 holds exactly the Polya number of k-fold substituted isomers of the icosahedral group I_h: 1, 23, 303, 4190, 45718, 418470, ..., and 985538239868528 for k = 30.", "quantifier": "all levels, all substituents other than carbon, all collision-free hashes", "why_tests_cant": "level 30 alone has about 10^15 structures", "anchors": ["ababe/stru/buckyball.py:Structure.all_speckle_gen"]}
{"id": "C84", "title": "Numbers of superlattices", "statement": "hnfs_from_n_dups yields exactly sum over d | n of d * sigma(d) superlattices of index n, which is the number of subgroups of index n of Z^3; the two-dimensional generator yields sigma(n).", "quantifier": "all n > 0, all unit cells, all set iteration orders", "why_tests_cant": "all n", "anchors": ["ababe/stru/grid.py:SuperLatticeGenerator.hnfs_from_n_dups", "ababe/stru/grid.py:SuperLatticeGenerator2D.hnfs_from_n_dups"]}
{"id": "C85", "title": "Random grids and grids as general cells", "statement": "SitesGrid.random_fill(bsp, size, sp) has the given size and holds sp where the random array is 1 and bsp where it is 0, so every grid of bsp and sp can come out. CStru.get_gcell() has the lattice scaled by depth, width and length, exactly one atom for each grid point with its element, and no others; for grids up to 990 points long in each direction its atoms come in the row-major order of get_array().", "quantifier": "all sizes, species, random arrays, lattices and grids", "why_tests_cant": "random contents; sizes", "anchors": ["ababe/stru/scaffold.py:SitesGrid.random_fill", "ababe/stru/scaffold.py:CStru.get_gcell"]}
{"id": "C86", "title": "Molecule names identify decorations", "statement": "get_name() of two buckyball structures is equal iff their atomic numbers agree site by site (numbers within 64 bits).", "quantifier": "all pairs of structures", "why_tests_cant": "all pairs", "anchors": ["ababe/stru/buckyball.py:Structure.get_name"]}
{"id": "C87", "title": "Double precision does not change cells and site permutations", "statement": "With every sum, product, rounding and remainder done in IEEE double precision, GeneralCell(lattice, positions, numbers), get_symmetry_permutation and OccupyGenerator(cell) return the same order of atoms, the same numbers and the same site permutations as with exact arithmetic, provided no coordinate that gets rounded to three decimals is within 10^-9 of a tie, or the coordinates are multiples of 2^-20. At a tie (x = 1/16) this fails: changing a coordinate by 2^-56 changes the order of the atoms.", "quantifier": "all cells with coordinates up to 10^5 (10^2 for symmetry operations), operations with entries up to 10", "why_tests_cant": "needs all positions near rounding boundaries", "anchors": ["ababe/stru/scaffold.py:GeneralCell.__init__", "ababe/stru/scaffold.py:GeneralCell.get_symmetry_permutation", "ababe/stru/sogen.py:OccupyGenerator.__init__"]}
{"id": "C88", "title": "Double precision does not change superlattices", "statement": "SuperLatticeCell.__eq__ in double precision is True exactly when a rotation maps one superlattice onto the other, for indices below 2000 and matrix products computed to within 1e-8; get_frac_from_H / get_frac_from_mat select exactly the interior points for indices below 90000 and products computed to within 1e-6; to_general_cell and supercell then list the same atoms in the same order at faithful positions.", "quantifier": "all superlattice matrices, cells and inexact inverses within the stated error", "why_tests_cant": "all matrices and all rounding errors of the linear algebra library", "anchors": ["ababe/stru/grid.py:SuperLatticeCell.__eq__", "ababe/stru/grid.py:SuperLatticeCell.get_frac_from_H", "ababe/stru/grid.py:SuperLatticeCell.to_general_cell", "ababe/stru/scaffold.py:GeneralCell.supercell", "ababe/stru/scaffold.py:GeneralCell.get_frac_from_mat"]}
{"id": "C89", "title": "Every derivative structure is listed", "statement": "Take any crystal obtained from a parent crystal by replacing some atoms by sp (or by sp1 and sp2), periodically along a sublattice of index n of the parent lattice. Then hnfs_from_n(parent, n) yields a superlattice s and there is a number k (k1, k2) such that OccupyGenerator(s.to_general_cell()).gen_nodup_unitary(k, sp) (gen_nodup_trinary_alloy) yields a structure whose infinite crystal is the given one up to a symmetry operation of the parent and one of the enlarged cell. Conversely every structure so listed is a crystal of that kind.", "quantifier": "all parent cells, correct operation lists, indices 0 < n < 2000, sublattices, periodic decorations, set iteration orders; sites of the enlarged cell distinct after rounding to three decimals, collision-free hashes", "why_tests_cant": "infinite crystals; all sublattices and decorations", "anchors": ["ababe/stru/grid.py:SuperLatticeGenerator.hnfs_from_n", "ababe/stru/grid.py:SuperLatticeCell.to_general_cell", "ababe/stru/sogen.py:OccupyGenerator.gen_nodup_unitary", "ababe/stru/sogen.py:OccupyGenerator.gen_nodup_trinary_alloy"]}
{"id": "C90", "title": "Application output can be read back and covers everything", "statement": "After a finished ocubiter, ocumaker, ocutenter or ocumakert run every way to place the asked numbers of new atoms is symmetry-equivalent to a structure of the input cell's lattice and sites which, if it passes the filters (and after refinement if asked), is held by a file; GeneralIO.from_file of that file returns the lattice and the real atoms of that structure with every number rounded to at most four decimals. The same holds for every superlattice file of suplat. (For the binary applications: if no two random file names coincide; for ternary vasp output: if no part of the path contains '.yaml'.)", "quantifier": "all inputs whose cell has distinct reduced coordinates, options, directory contents, random names, correct operation lists, collision-free hashes", "why_tests_cant": "all runs", "anchors": ["ababe/cmdline/apps/occupybiter.py:App.run", "ababe/cmdline/apps/occupymaker.py:App.run", "ababe/cmdline/apps/occupytenter.py:App.run", "ababe/cmdline/apps/occupymakert.py:App.run", "ababe/cmdline/apps/superlattice.py:App.run", "ababe/io/io.py:GeneralIO.from_file"]}
{"id": "C91", "title": "The filters miss no wanted structure", "statement": "The applications first pick one decoration of every symmetry class and then apply the filters (primitive cells only; atoms of one element farther apart than d). In a cell whose edges are orthogonal, or which is wide compared to d, with isometric symmetry operations, the outcome of the filters is the same for all members of a class: the structures recorded by ocubiter, ocumaker, ocutenter and ocumakert are exactly one representative of every class of decorations whose infinite crystal is primitive (if asked), contains the restricted element and keeps its atoms farther apart than d. In a skew cell this is false: of two mirror images MinDistanceRestriction.is_satisfied can accept one and reject the other.", "quantifier": "all inputs, options, cells with distinct sites in [0,1), correct operation lists, collision-free hashes", "why_tests_cant": "all decorations and all symmetry images; distances over the infinite crystal", "anchors": ["ababe/stru/restriction.py:MinDistanceRestriction.is_satisfied", "ababe/cmdline/apps/occupybiter.py:App.run", "ababe/cmdline/apps/occupymaker.py:App.run", "ababe/cmdline/apps/occupytenter.py:App.run", "ababe/cmdline/apps/occupymakert.py:App.run", "ababe/stru/scaffold.py:GeneralCell.is_primitive"]}
{"id": "C92", "title": "Which actions the tree search tries", "statement": "The score of a position changes only when a playout passes through it. So an action whose score exceeds every leaf value is tried again after boundedly many playouts; but an action b whose score is below that of a sibling a, below the mean of a and below every leaf value after a is never tried again, however many playouts are made. In a new search get_move does not return b whenever the prior of b is below that of a and below every leaf value after a, even if b leads to the best value in every continuation (so the most visited action does not approach the best one as n_playout grows).", "quantifier": "all games, histories of playouts and steps forward, states, depths, numbers of playouts; c_puct >= 0; on Python 2 (on Python 3 get_move raises, C57)", "why_tests_cant": "statements about every number of playouts", "anchors": ["ababe/mlearn/mcts.py:MCTS._playout", "ababe/mlearn/mcts.py:MCTS.get_move", "ababe/mlearn/mcts.py:TreeNode.update", "ababe/mlearn/mcts.py:TreeNode.select"]}
{"id": "C93", "title": "Double precision does not change the verdict of the distance restriction", "statement": "MinDistanceRestriction((ele, d)).is_satisfied(cell) with every operation done in IEEE double precision (and any square root accurate to 10^-14) returns what exact arithmetic gives, including the ValueError for an absent element, provided no squared distance between atoms of the element in the cell and its neighbours lies within 10^-6 of d^2. For close calls this fails: two gold atoms at heights 0 and 0.2 of a 5 Angstrom cell with d = 1 are rejected although the distance 5 * float(0.2) exceeds 1.", "quantifier": "all cells with lattice entries up to 100 and coordinates in [-1, 1], elements and bounds", "why_tests_cant": "all positions, all rounding errors", "anchors": ["ababe/stru/restriction.py:MinDistanceRestriction.is_satisfied", "ababe/stru/scaffold.py:GeneralCell.get_cartesian", "ababe/stru/scaffold.py:GeneralCell.supercell"]}
{"id": "C94", "title": "Files written and read in double precision", "statement": "With every operation in IEEE double precision: writing a cell as POSCAR or YAML and reading it back yields, for every lattice entry and coordinate, the double nearest to the exact result (rounded to six, then to four decimals), unless the six-decimal value ends in 50 (and, for YAML, provided no value is within 10^-9 of a tie at six decimals). A cell that was read from a file (YAML with any zoom, POSCAR of real atoms with scale factor 1) is not changed by writing and reading it again: YAML returns the same cell bit for bit, POSCAR the same lattice and the same sites. The exception is real: coordinate 0.00015 comes back as 0.0001 in double precision and as 0.0002 in exact arithmetic.", "quantifier": "all cells of known elements and files with entries up to 10^5 in absolute value", "why_tests_cant": "all coordinates, all rounding errors, files of any number of sites", "anchors": ["ababe/io/vasp.py:VaspOutput.get_string", "ababe/io/vasp.py:VaspInput.from_string", "ababe/io/yaml.py:YamlOutput.get_string", "ababe/io/yaml.py:YamlInput.from_string"]}
{"id": "C95", "title": "Arrays shared between cells, and what spglib sees", "statement": "A cell keeps the lattice array it is given but copies positions and numbers: later writes into the caller's positions and numbers arrays never change it, and all cells built on one lattice array have equal lattices after any history. Assigning cell.numbers = arr changes numbers, comment and id of this cell only; spg_cell, and with it everything spglib computes (symmetry, permutations, Wyckoff letters, primitivity), keeps the old numbers however often numbers are assigned. While numbers are never assigned the two views agree whatever is written in place. A generator made from a cell with assigned numbers can therefore yield two structures that are translates of each other.", "quantifier": "all histories of array creation, construction, assignment and in-place writes", "why_tests_cant": "aliasing shows only in particular interleavings; all histories", "anchors": ["ababe/stru/scaffold.py:GeneralCell.__init__", "ababe/stru/scaffold.py:GeneralCell.numbers", "ababe/stru/scaffold.py:GeneralCell.get_symmetry_permutation"]}
{"id": "C96", "title": "Numbers of superlattices up to symmetry", "statement": "hnfs_from_n(cell, n) yields (1/|G|) * sum over the rotations r of the number of sublattices of index n that r maps to itself; hnfs_from_n_2D yields the same for sublattices containing the third axis, if the rotations keep that axis up to sign. In a crystal whose only rotations are the identity and the inversion it yields all sum over d | n of d * sigma(d) superlattices.", "quantifier": "all cells, point groups of any order, indices n < 2000", "why_tests_cant": "all n and all point groups; the count is a global property of the output", "anchors": ["ababe/stru/grid.py:SuperLatticeGenerator.hnfs_from_n", "ababe/stru/grid.py:SuperLatticeGenerator2D.hnfs_from_n"]}
{"id": "C97", "title": "What an application run leaves behind when it stops half way", "statement": "`ocubiter` and `ocumaker` treat the generated structures in order. The generators never raise on a cell that could be read, whatever symmetry operations spglib returns. The run ends at the first structure that raises - spglib fails on it, the distance restriction is about an element it does not contain, its refined form is not a cell, or it has an unknown atomic number - with that exception, and the files are then exactly the records of the passing structures before it. Without refinement and with a working spglib the run finishes exactly if every structure left by the primitivity test contains the restricted element; a restriction on the replaced element with all atoms replaced always aborts with ValueError and an empty directory.", "quantifier": "all input files, options, file systems, outside worlds", "why_tests_cant": "a test can show one aborted run; it cannot show for all inputs and options which structure stops the run and what has been written by then", "anchors": ["ababe/cmdline/apps/occupybiter.py:App.run", "ababe/cmdline/apps/occupymaker.py:App.run"]}
{"id": "C98", "title": "Which texts and mappings are read as cells", "statement": "VaspInput accepts a text exactly if, blank lines removed, line 2 is a number, lines 3-5 are three numbers each, line 6 holds known element symbols, line 7 integers, no more of them than symbols, every line from the ninth on starts with three numbers, there is at least one such line and no more than atoms declared. Lines 1 and 8 (comment, direct/cartesian) are not looked at. Fewer sites than declared atoms are accepted, the surplus atoms being dropped. Texts of fewer than nine non-blank lines are rejected. YamlInput accepts a mapping exactly if lattice, zoom, positions and numbers are there, with at least one position and no fewer numbers than positions; a missing key is a KeyError.", "quantifier": "all texts, all mappings", "why_tests_cant": "the set of accepted texts is infinite and so is its complement", "anchors": ["ababe/io/vasp.py:VaspInput.from_string", "ababe/io/vasp.py:VaspInput.get_cell", "ababe/io/yaml.py:YamlInput.from_string"]}
{"id": "C99", "title": "Which words in input files are numbers", "statement": "A word or line of a POSCAR file is taken as the number x exactly if it is blanks, an optional sign, digits with an optional point and at least one digit, an optional exponent, blanks, with single underscores allowed between digits, and denotes x; as the count n exactly if it is blanks, an optional sign and such digits. Everything else is a ValueError. No text denotes two numbers.", "quantifier": "all texts", "why_tests_cant": "the accepted words form an infinite language, defined by a grammar", "anchors": ["ababe/io/vasp.py:VaspInput.from_string"]}
{"id": "C100", "title": "Ternary applications that stop half way", "statement": "On valid settings and a new output path the ternary applications treat the structures in order up to the first one that raises, or for which no temporary name is free; exactly the passing structures before it have been written, each to a new file of its own, and the run ends with that exception, or normally if there is none. Negative numbers of substitutions and unknown species leave an empty directory and a ValueError or KeyError. Without refinement ocumakert finishes exactly if every primitive structure contains the element of the restriction, which holds for the inserted and the target elements but can fail for other elements of the cell.", "quantifier": "all cells, settings, random names and file systems", "why_tests_cant": "the states left behind by interrupted runs are not enumerated by tests", "anchors": ["ababe/cmdline/apps/occupytenter.py:App.run", "ababe/cmdline/apps/occupymakert.py:App.run"]}
{"id": "C101", "title": "Derivative structures of layers", "statement": "Every crystal that arises from a parent by replacing atoms by one or two species, periodically along a sublattice of index n that contains the third axis, is found, up to symmetry, among the structures listed for the 2D superlattices of index n; everything listed is such a crystal; the cells keep the third lattice vector of the parent and have the other two in the plane of the first two.", "quantifier": "all parent cells with correct symmetry operations, volumes below 2000 (the bound of C31) and decorations; sites of the enlarged cell distinct after rounding to three decimals, collision-free hashes", "why_tests_cant": "quantifies over all sublattices and all periodic decorations", "anchors": ["ababe/stru/grid.py:SuperLatticeGenerator2D.hnfs_from_n", "ababe/stru/sogen.py:OccupyGenerator.gen_nodup_unitary", "ababe/stru/sogen.py:OccupyGenerator.gen_nodup_trinary_alloy"]}
{"id": "C102", "title": "Superlattice runs that stop half way", "statement": "suplat refuses before touching the file system if spglib fails, the volume is 0, or the cell is not primitive. If the name of the output directory is taken by a file, nothing is changed. Otherwise the directory is emptied or created, then the superlattices are treated in order, one file each, until spglib fails on one or one has an atomic number outside the table; earlier files stay. With a working spglib a run finishes exactly when all elements of the input are in the table; otherwise the contents of an existing output directory are lost and nothing is written.", "quantifier": "all readable inputs, volumes below 2000 (the bound of C31), options and file systems", "why_tests_cant": "the states left behind by interrupted runs are not enumerated by tests", "anchors": ["ababe/cmdline/apps/superlattice.py:App.run", "ababe/cmdline/apps/superlattice.py:App.__init__"]}
{"id": "C103", "title": "How the number of structures depends on the number of substituted atoms", "statement": "For the generators without duplicates that substitute atoms of one element, of one Wyckoff letter, or any atoms, by an element not yet on those N sites: the number of structures yielded for n substituted atoms is 1 for n = 0, 0 for n > N, the same for n and N - n, does not decrease from n to n + 1 while 2 n < N, does not increase after that, is at most choose(N, n), and times the number of symmetry permutations is at least choose(N, n).", "quantifier": "all cells, symmetry groups, elements and numbers n, collision-free hashes", "why_tests_cant": "relates the results of runs with different arguments for groups and cells of any size; the increase up to one half is not visible from the code", "anchors": ["ababe/stru/sogen.py:OccupyGenerator.gen_nodup_of_ele", "ababe/stru/sogen.py:OccupyGenerator.gen_nodup_unitary", "ababe/stru/sogen.py:OccupyGenerator.gen_nodup"]}
{"id": "C104", "title": "From a list of atoms to inequivalent crystals", "statement": "Take a lattice, a list of atoms in any order and any periodic images, any two more than 0.001 apart in some coordinate modulo 1, and operations that exactly permute the sites and form a group. Building GeneralCell, OccupyGenerator and calling gen_nodup_unitary, gen_nodup_of_ele or gen_nodup_trinary_alloy yields cells with the given lattice whose infinite crystals are exactly one from each symmetry class of the crystals with the asked numbers of atoms turned into the new elements; level k of all_speckle_gen_unitary and all_speckle_gen_of_ele does so for k turned atoms.", "quantifier": "all lists of atoms, operation lists, elements, numbers and levels, collision-free hashes", "why_tests_cant": "quantifies over infinite crystals and over all ways of presenting the same atoms", "anchors": ["ababe/stru/scaffold.py:GeneralCell.__init__", "ababe/stru/sogen.py:OccupyGenerator.gen_nodup_unitary", "ababe/stru/sogen.py:OccupyGenerator.gen_nodup_of_ele", "ababe/stru/sogen.py:OccupyGenerator.gen_nodup_trinary_alloy", "ababe/stru/sogen.py:OccupyGenerator.all_speckle_gen_unitary", "ababe/stru/sogen.py:OccupyGenerator.all_speckle_gen_of_ele"]}
{"id": "C105", "title": "Each derivative structure appears exactly once over all superlattices", "statement": "Take a parent cell whose operations form the symmetry group of its crystal, and a crystal that arises from it by turning some atoms, or some atoms of one element, into a new element (or into two new elements). Let the parent's lattice translations that keep this crystal form a lattice of index n. If, for every superlattice listed for volume n, the operations found for the enlarged cell are the parent's motions that keep the superlattice, then there is exactly one superlattice in the list, one number of replaced atoms and one entry of gen_nodup_unitary (gen_nodup_of_ele, gen_nodup_trinary_alloy) for its cell whose crystal is the given one up to a motion of the parent. The same holds for hnfs_from_n_2D and crystals whose translations include the third axis.", "quantifier": "all parents, symmetry groups, volumes below 2000, sublattices and decorations; sites of the enlarged cell distinct after rounding to three decimals, collision-free hashes", "why_tests_cant": "the duplicates could hide in two different superlattices, compositions or list entries, of which no run compares all pairs", "anchors": ["ababe/stru/grid.py:SuperLatticeGenerator.hnfs_from_n", "ababe/stru/grid.py:SuperLatticeGenerator2D.hnfs_from_n", "ababe/stru/grid.py:SuperLatticeCell.__eq__", "ababe/stru/grid.py:SuperLatticeCell.to_general_cell", "ababe/stru/sogen.py:OccupyGenerator.gen_nodup_unitary", "ababe/stru/sogen.py:OccupyGenerator.gen_nodup_of_ele", "ababe/stru/sogen.py:OccupyGenerator.gen_nodup_trinary_alloy"]}
{"id": "C106", "title": "Which arrangements a random walk returns, and how likely each is", "statement": "For n >= 2 the possible results of random_walk_arrange on Boron2dArrangeProblem(n) and FCC3dArrangeProblem(n) are exactly the sequences of n different grid positions that begin in the middle and in which every later position is adjacent to an earlier one. Each such sequence comes from exactly one sequence of random indices, the k-th of which is drawn from as many values as there are free positions adjacent to the first k positions; so at every step all free adjacent positions are equally likely.", "quantifier": "all n >= 2, all sequences of positions, all random indices, all set iteration orders", "why_tests_cant": "neither the absence of an unreachable arrangement nor the equal weights can be seen from sampled walks", "anchors": ["ababe/mlearn/arrange.py:random_walk_arrange", "ababe/mlearn/arrangeAgent.py:Boron2dArrangeProblem", "ababe/mlearn/arrangeAgent.py:FCC3dArrangeProblem", "ababe/mlearn/dsutils.py:RandomPopSet"]}
{"id": "C107", "title": "Rounded coordinates do not change the structures found", "statement": "Take a cell, and a second one with the same elements whose coordinates differ from it by at most e, together with symmetry operations that have the same rotations and translations off by at most d (up to lattice vectors). If no coordinate, and no coordinate of the image of a site under an operation, comes so close to a boundary of the rounding to three decimals that these errors matter, then both cells have their sites in the same order, the tables of site permutations are equal and every generator method lists structures with the same elements in the same order, or both raise the same exception. A cell written to a YAML or POSCAR file and read back is such a second cell with e = 0.0000505, so thirds and sixths survive files. Without the condition reading a file can change the order of the sites.", "quantifier": "all cells, errors, operations, generator methods and files (of known elements)", "why_tests_cant": "files hold four to six decimals and spglib works with a tolerance, so in practice no coordinate is exact; tests use coordinates that are exact decimals", "anchors": ["ababe/stru/scaffold.py:GeneralCell._get_new_id_seq", "ababe/stru/scaffold.py:GeneralCell.get_symmetry_permutation", "ababe/stru/sogen.py:OccupyGenerator", "ababe/io/io.py:GeneralIO.write_file", "ababe/io/vasp.py:VaspInput.from_string", "ababe/io/yaml.py:YamlInput.from_string"]}
{"id": "C108", "title": "What hash collisions do, and what a digest of fixed width can list", "statement": "gen_2nodup_gen keeps exactly the structures whose digest is not that of a symmetry image of a structure kept before, whatever the digest. A digest with B values therefore never lists more than B structures per generator or per level, and if the decorations outnumber B times the symmetry operations some class of decorations is lost; xxh64 is not enough for 40 of 80 sites without symmetry. On C60 the 32-bit digest cannot tell all decorations apart from 9 to 51 substituents, and from 12 to 48 substituents all_speckle_gen always loses structures.", "quantifier": "all digests, cells, operations, generator methods and levels", "why_tests_cant": "a collision needs billions of structures; the loss is silent", "anchors": ["ababe/stru/sogen.py:OccupyGenerator.gen_2nodup_gen", "ababe/stru/sogen.py:numbers2id", "ababe/stru/buckyball.py:Structure.to_nodup_generator", "ababe/stru/buckyball.py:Structure.all_speckle_gen", "ababe/stru/buckyball.py:Structure._get_atom_seq_identifier", "ababe/stru/scaffold.py:GeneralCell.id"]}
{"id": "C109", "title": "Writers, file names and the file system", "statement": "GeneralIO.write_file touches nothing if no format is recognised (UnboundLocalError), if an element has no name (IndexError) or if the name is that of a directory (OSError); without a name it prints the text; otherwise the named file, new or not, holds exactly the text of the cell and every other file and directory is unchanged. from_file gives the rounded non-ghost sites back, and fails on a missing file. A writer object used later, after assignments and in-place writes to the arrays, never fails: the YAML writer shows the present numbers with the old comment, lattice and positions, the old YAML writer the old comment with the present arrays, and the POSCAR writer the old comment, elements and counts with the present lattice and the present sites labelled by the old elements; so an in-place change gives a POSCAR that reads back as a wrong structure. Without writes to the three arrays the text is that of the cell when the writer was made.", "quantifier": "all cells, histories of assignments and writes, names, formats and file systems", "why_tests_cant": "tests write fresh cells to fresh names; writers that outlive a change of the arrays and names that already exist are not tried", "anchors": ["ababe/io/io.py:GeneralIO.write_file", "ababe/io/io.py:GeneralIO.from_file", "ababe/io/vasp.py:VaspOutput.write_file", "ababe/io/vasp.py:VaspOutput.get_string", "ababe/io/yaml.py:YamlOutput.write_file", "ababe/stru/io.py:YamlOutput.write", "ababe/stru/io.py:VaspPOSCAR.write"]}
{"id": "C110", "title": "Equality of grids and structures", "statement": "SitesGrid.__eq__ is False for None and otherwise holds exactly if both grids have the same dimensions and read the same atomic number at every position; CStru.__eq__ holds exactly if the lattice matrices are identical and the grids are equal. Both are equivalence relations, and for grids with entries they agree with equality of to_array and get_array. Writing a species of another atomic number into one of two equal grids with separate rows makes them unequal, and writing the old one back makes them equal again.", "quantifier": "all grids, structures, positions and species", "why_tests_cant": "equality is tested on a few literals", "anchors": ["ababe/stru/scaffold.py:SitesGrid.__eq__", "ababe/stru/scaffold.py:CStru.__eq__", "ababe/stru/scaffold.py:SitesGrid.to_array", "ababe/stru/scaffold.py:CStru.get_array"]}
{"id": "C111", "title": "Sessions of single-structure commands", "statement": "atclear, perturb, supcell and pcell, run one after the other on a file system: a command changes at most one file, named after the stem of its input and the command, in the working directory; a command that is rejected, fails or prints changes nothing; no command overwrites its own input; files not named like an output of the session are untouched. What is written can be read by the next command, with lattice and atoms rounded. Commands none of which writes what another reads or writes end as each would alone, with the same files in every order. Inputs with the same name up to the first dot in different directories share one output: only the last one is left.", "quantifier": "all file systems, sequences of commands, arguments and answers of spglib", "why_tests_cant": "tests run one command on one fresh input", "anchors": ["ababe/cmdline/runatilib.py:atclear", "ababe/cmdline/runatilib.py:perturb", "ababe/cmdline/runatilib.py:supcell", "ababe/cmdline/runatilib.py:pcell", "ababe/cmdline/apps/atomclarifier.py:App.run", "ababe/cmdline/apps/atomperturb.py:App.run", "ababe/io/io.py:GeneralIO.write_file"]}
{"id": "C112", "title": "What a command line means", "statement": "runaba suplat|ocumaker|ocubiter|ocutenter|ocumakert and runati atclear|perturb|supcell|pcell call their function with the documented defaults changed by the settings of the line from left to right, in any spelling (long name, long name with =, short name, short name with attached value, joined switches) and with the input file anywhere among them or after --. Settings of different options may change places; of two settings of one option the later counts, of several distance restrictions only the first has an effect. An unknown option or command, an option without all its values, a number of input files other than one, an input that does not exist, a value of the wrong type and a missing required option are rejected, and --help, --version and the empty line answered, without touching any file; a missing pair of species or numbers, a missing scale, or a directory given as the input raises a stated exception without writing.", "quantifier": "all command lines, file systems and contents", "why_tests_cant": "tests call the applications, never the command line; a line has unboundedly many spellings and orders", "anchors": ["ababe/cmdline/runabalib.py:suplat", "ababe/cmdline/runabalib.py:ocumaker", "ababe/cmdline/runabalib.py:ocubiter", "ababe/cmdline/runabalib.py:ocutenter", "ababe/cmdline/runabalib.py:ocumakert", "ababe/cmdline/runatilib.py:atclear", "ababe/cmdline/runatilib.py:perturb", "ababe/cmdline/runatilib.py:supcell", "ababe/cmdline/runatilib.py:pcell"]}
{"id": "C113", "title": "Supercells by any integer matrix", "statement": "supercell(M) for a matrix M of non-negative integers, triangular or not and of either handedness, with index |det M| below 100000: if the product of the diagonal of M is |det M| the result is the same infinite crystal with |det M| times the sites and det M times the volume and no repeated site. Below |det M| the call raises IndexError; above it the call succeeds, all sites are right, but the species are those of the list with each number repeated as often as the product of the diagonal, cut off at the number of sites: right for one species, and wrong (too many atoms of the first stored species) if that species occurs at one atom only. A singular M raises LinAlgError. With two negative factors, supercell(diag(-a,-b,k)) succeeds with k instead of a\u00b7b\u00b7k copies in a\u00b7b\u00b7k times the volume.", "quantifier": "all cells, all such matrices", "why_tests_cant": "tests use one diagonal matrix; the faults need matrices outside the tested shape", "anchors": ["ababe/stru/scaffold.py:GeneralCell.supercell", "ababe/stru/scaffold.py:GeneralCell.get_frac_from_mat"]}
{"id": "C114", "title": "What a session of both programs can do to existing files", "statement": "Run any number of command lines of runaba and runati one after the other, right or wrong, finished or aborted. A file that existed before keeps its content, and the directories leading to it stay, unless (1) a part of its path begins with SUPLAT_ and some line was a suplat, or (2) it is named in the working directory with an ending of a runati output and some line was a runati. In particular an input in the working directory without such a name survives every session, and the occupation commands (ocumaker, ocubiter, ocutenter, ocumakert) never change an existing file. After a suplat that finished, its output directory holds only files of this line's volume and output mode: results of an earlier run with the same comment and another volume are gone.", "quantifier": "all sessions, file systems, inputs, options and random suffixes (without slash)", "why_tests_cant": "tests run each command once in a fresh directory and look only at the new files", "anchors": ["setup.py", "ababe/cmdline/runabalib.py:exec_from_cmdline", "ababe/cmdline/runatilib.py:exec_from_cmdline", "ababe/cmdline/apps/superlattice.py:App.run", "ababe/cmdline/apps/occupybiter.py:App.run", "ababe/cmdline/apps/occupymaker.py:App.run"]}
{"id": "C115", "title": "suplat followed by ocubiter finds every derivative structure", "statement": "Take any crystal on the sites of the input that differs from it by replacing atoms of one element by one species and repeats along a sublattice of index v. A finished run of suplat for volume v leaves a file such that a finished run of ocubiter on that file, for the right number of replaced atoms and without filters, leaves a file with that crystal: rounded to the decimals of the files, up to an operation of the parent, the map by which spglib standardises the superlattice, and an operation of the standardised cell.", "quantifier": "all inputs, volumes below 2000, elements, species, sublattices, periodic replacements, output modes and starting file systems, collision-free hashes", "why_tests_cant": "tests never run one program on the output of another, and no test knows the full set of derivative structures", "anchors": ["ababe/cmdline/apps/superlattice.py:App.run", "ababe/cmdline/apps/occupybiter.py:App.run", "ababe/stru/sogen.py:OccupyGenerator.gen_nodup_of_ele", "ababe/stru/scaffold.py:GeneralCell.get_shaped_cell", "ababe/io/vasp.py:VaspInput.from_string", "ababe/io/yaml.py:YamlInput.from_string"]}
{"id": "C116", "title": "The grid generator and the cell generator find the same structures", "statement": "For a grid of at most 990 points in each direction and operations that permute its points, gen_nodup_cstru(lattice, sea, size, speckle, num) and OccupyGenerator(CStru(lattice, sea grid).get_gcell()).gen_nodup_unitary(num, speckle) yield the same structures in the same order: the n-th cell is get_gcell() of the n-th grid. The number yielded, times the number of permutations of grid points brought about by the operations, is the sum over these of the number of decorations they fix. It is 1 for no speckle, 0 for more speckles than points, the same for n and N - n, rises up to N/2 and falls after, and is unchanged when sea and speckles are exchanged with num replaced by N - num.", "quantifier": "all lattices, sizes up to 990, species, numbers and operation lists, collision-free hashes", "why_tests_cant": "the two generators are separate implementations that tests compare on two sizes at most; the counts are infinitely many", "anchors": ["ababe/stru/sogen.py:gen_nodup_cstru", "ababe/stru/sogen.py:OccupyGenerator.gen_nodup_unitary", "ababe/stru/scaffold.py:CStru.get_gcell", "ababe/stru/scaffold.py:CStru.gen_speckle", "ababe/stru/sogen.py:get_permutation_cell"]}
{"id": "C117", "title": "Alloys of several species by repeated substitution", "statement": "Replace atoms of one element by several new species one after another: gen_nodup_of_ele(ele, n, sp) on the cell, then the next species with a new OccupyGenerator for every cell obtained, and so on. Taken together the cells obtained are the alloys of that composition up to the symmetry of the starting cell: each has the starting lattice and sites, keeps the other atoms and holds every species in its number; every such alloy is equivalent to one of them; no two are equivalent, even if they come from different intermediate cells. The number is the same for every order of the species, and for a cell of one element and two species it is the number that gen_nodup_trinary_alloy yields.", "quantifier": "all cells, lists of new species with numbers, and symmetry finders that return for each decoration exactly the operations keeping it; collision-free hashes", "why_tests_cant": "the number of alloys of several species explodes; no test goes beyond one species at a time, and a duplicate across intermediate cells would need a full comparison", "anchors": ["ababe/stru/sogen.py:OccupyGenerator.gen_nodup_of_ele", "ababe/stru/sogen.py:OccupyGenerator.gen_nodup_trinary_alloy", "ababe/stru/sogen.py:OccupyGenerator.__init__", "ababe/stru/scaffold.py:GeneralCell.get_symmetry_permutation"]}
{"id": "C118", "title": "A cell is determined by its lattice and its crystal; supercells of supercells", "statement": "Two GeneralCells with the same lattice that describe the same infinite crystal without repeating a site have the same numbers in the same order, hence the same id, and site by site the same position up to a lattice vector. Consequently supercell(A) followed by supercell(B) gives the cell of supercell(B\u00b7A), enlarging by factors in either order or at once by their products gives the same cell, and supercell with the unit matrix gives the cell back.", "quantifier": "all cells with a non-degenerate lattice and distinct reduced coordinates, all scale matrices for which supercell is right (C113: determinant below 100000)", "why_tests_cant": "infinitely many cells and pairs of matrices; equality of the stored order after two enlargements cannot be covered by samples", "anchors": ["ababe/stru/scaffold.py:GeneralCell.__init__", "ababe/stru/scaffold.py:GeneralCell.id", "ababe/stru/scaffold.py:GeneralCell.supercell"]}
{"id": "C119", "title": "Superlattices of superlattices", "statement": "List the superlattices of volume m of a cell with hnfs_from_n_dups, turn them into cells with to_general_cell and list the superlattices of volume n of these. Every superlattice cell listed directly for volume m\u00b7n is reached: one of the two-step cells has the same lattice of translations, the same crystal and the same number of atoms. Every two-step cell is, up to the choice of basis vectors, one of the cells listed for m\u00b7n, and the lattice of exactly one of them. If m and n have no common factor the two steps are determined by the result.", "quantifier": "all cells, all volumes with product below 100000, all set iteration orders", "why_tests_cant": "a statement about all sublattices of all indices; tests only list volumes up to a handful and never twice in a row", "anchors": ["ababe/stru/grid.py:SuperLatticeGenerator.hnfs_from_n_dups", "ababe/stru/grid.py:SuperLatticeCell.to_general_cell"]}
{"id": "C120", "title": "The search tree is a part of the game tree", "statement": "In a tree search that follows a game (every playout starts from the present state, and update_with_move is called with each move played), the children of every expanded position are exactly the actions the policy offers at the state of that position, with the prior it lists first; the positions in the tree are exactly the present one and those reached by an offered move from a position that some playout left by a move; every line in the tree is a legal line of play. get_move returns an offered move if there is one and raises ValueError if there is none. Each playout makes at most playout_depth times the number of offered actions new nodes, and each step forward at most one. If the state moves on without update_with_move, get_move may return a move that is not offered.", "quantifier": "all games, policies, histories of playouts and moves, depths and numbers of playouts; on Python 2 (on Python 3 get_move raises, C57)", "why_tests_cant": "statements about every history of a search", "anchors": ["ababe/mlearn/mcts.py:MCTS._playout", "ababe/mlearn/mcts.py:MCTS.get_move", "ababe/mlearn/mcts.py:MCTS.update_with_move", "ababe/mlearn/mcts.py:TreeNode.expand"]}
{"id": "C121", "title": "Elements are only labels", "statement": "Rename the elements of a cell by a one-to-one map and the species to be put in likewise, with the same symmetry operations. Then OccupyGenerator builds the same site permutations, and every generator method (gen_dup*, gen_nodup*, gen_nodup_trinary_alloy, all_speckle_gen*) lists exactly the renamed structures in the same order, or raises the same exception. In particular, of two species absent from the cell it makes no difference which one is put in.", "quantifier": "all cells, renamings, species, numbers and hashes without collisions on the decorations concerned", "why_tests_cant": "all cells and all renamings; tests always use the same few elements", "anchors": ["ababe/stru/sogen.py:OccupyGenerator.gen_nodup_unitary", "ababe/stru/sogen.py:OccupyGenerator.gen_nodup_of_ele", "ababe/stru/sogen.py:OccupyGenerator.gen_nodup", "ababe/stru/sogen.py:OccupyGenerator.gen_nodup_trinary_alloy", "ababe/stru/sogen.py:OccupyGenerator.all_speckle_gen_unitary", "ababe/stru/sogen.py:OccupyGenerator.all_speckle_gen_of_ele"]}
{"id": "C122", "title": "The value of a search node in Python's own numbers", "statement": "A tree node updated n times with floats of absolute value at most B (or with any numbers on Python 3) holds a float within B(n+1)/2^50 of their mean; its score is the mean plus the exploration bonus up to rounding, and select picks a visited child whose true score is best up to twice that bound. On Python 2, the only version with dict.iteritems, integer leaf values are averaged with floor division: for values between -M and M the node's value never goes up after 2M visits and goes down by one at each value below it, so two losses make it -1 for ever whatever follows. lmbda=1 given as an integer makes every leaf value an integer; a float lmbda never does. With a float lmbda between 0 and 1 the leaf value is (1-lmbda)v + lmbda z up to B/2^50.", "quantifier": "all sequences of updates (up to 2^49 of them), all numbers of the machine", "why_tests_cant": "error bounds over all sequences of updates; tests run a few updates and round the outcome", "anchors": ["ababe/mlearn/mcts.py:TreeNode.update", "ababe/mlearn/mcts.py:TreeNode.get_value", "ababe/mlearn/mcts.py:TreeNode.select", "ababe/mlearn/mcts.py:MCTS._playout"]}
{"id": "C123", "title": "Sphere query and atom removal in double precision", "statement": "In IEEE double precision get_points_incell_insphere returns the same sites, and AtomRemoveClarifier and VerboseAtomRemoveClarifier leave the same cell, as with exact arithmetic, for cells of up to 100 A per entry with fractional coordinates of at most 1, unless the squared distance of an image of a site from a center lies within 1e-6 of the square of the radius. Without that proviso it fails: an atom at the double 1/3 of a cell of 3 A is closer than 1 A to the origin, but a query with this radius misses it.", "quantifier": "all cells of bounded size, centers, radii, elements, and all square roots with an error of 1e-14", "why_tests_cant": "rounding errors over all real inputs; tests use round numbers far from the boundary", "anchors": ["ababe/stru/scaffold.py:ModifiedCell.get_points_incell_insphere", "ababe/stru/scaffold.py:ModifiedCell.in_euclidean_discance", "ababe/stru/clarifier.py:AtomRemoveClarifier.clarify", "ababe/stru/clarifier.py:VerboseAtomRemoveClarifier.clarify"]}
{"id": "C124", "title": "When the symmetry finder misses operations or reports false ones", "statement": "Compare a generator whose symmetry finder reports only a subgroup of the operations with one that gets all of them. gen_nodup_unitary, gen_nodup_of_ele, gen_nodup, gen_nodup_trinary_alloy and every level of all_speckle_gen_unitary then still list every structure up to the full symmetry, none is lost; no structure is listed more often than (site permutations of all operations) / (site permutations of those found); the list is at least as long as the right one and at most this factor longer; and it has the right length when the missing operations bring about no further permutation. Conversely, with false operations added, no two listed structures are equivalent, but structures are lost: with the exchange of the axes of a rectangle of 3 by 4 A reported, the pair along one of its sides is missing.", "quantifier": "all cells, both operation lists (groups on the sites), numbers of atoms, elements, Wyckoff letters, and hashes injective on the structures concerned", "why_tests_cant": "would need wrong answers of spglib (its tolerance is passed by the user) for every crystal", "anchors": ["ababe/stru/sogen.py:OccupyGenerator.gen_nodup_unitary", "ababe/stru/sogen.py:OccupyGenerator.gen_nodup_of_ele", "ababe/stru/sogen.py:OccupyGenerator.gen_nodup", "ababe/stru/sogen.py:OccupyGenerator.gen_nodup_trinary_alloy", "ababe/stru/sogen.py:OccupyGenerator.all_speckle_gen_unitary", "ababe/stru/scaffold.py:GeneralCell.get_symmetry_permutation"]}
{"id": "C125", "title": "Removing duplicates keeps the first of every class, and the laws that follow", "statement": "gen_2nodup_gen keeps exactly those structures of its input that none of the structures before them is equivalent to, whether that one was kept or not. Hence: the result depends neither on the hash nor on the order or multiplicity of the operations, only on which structures they identify; filtering twice is the same as filtering once; for two inputs one after the other, of the second are kept those that it would keep alone and that have no equivalent in the first, and the first may be filtered before; a test that treats equivalent structures alike, such as the primitivity test and the distance restriction on the cells of C91, may be made before or after with the same list as result; replacing input structures by equivalent ones replaces output structures by equivalent ones; and another order of the input gives as many structures of the same classes.", "quantifier": "all cells, operations, hashes without collisions on the images, and all lists of decorations, not only those made by the generators", "why_tests_cant": "properties of all input lists and all groups; tests filter one list", "anchors": ["ababe/stru/sogen.py:OccupyGenerator.gen_2nodup_gen", "ababe/stru/sogen.py:OccupyGenerator._update_isoset"]}
{"id": "C126", "title": "A consumer that changes the structures it receives", "statement": "gen_2nodup_gen reads the numbers of a yielded structure only when the next one is asked for, so what the consumer does to the structure in between matters. A consumer that only replaces structures by equivalent ones (the same one included) receives the same structures as one that merely looks, for every hash, and with all_speckle_gen* consumed level by level it receives one structure of every class of every level. For any consumer: a structure is received exactly if what the consumer made of the structures received before is not equivalent to it. Hence a consumer that writes a foreign element (for instance a vacancy) into every structure receives all duplicates, one that changes a structure into one of another class loses that class, and one that shortens the numbers makes the next call raise IndexError.", "quantifier": "all cells, operations, consumers (functions of everything received before), lists of structures, hashes", "why_tests_cant": "the consumer is arbitrary user code running between two steps of the generator", "anchors": ["ababe/stru/sogen.py:OccupyGenerator.gen_2nodup_gen", "ababe/stru/sogen.py:OccupyGenerator.all_speckle_gen_unitary", "ababe/stru/sogen.py:OccupyGenerator.all_speckle_gen", "ababe/stru/sogen.py:OccupyGenerator.all_speckle_gen_of_ele", "ababe/stru/scaffold.py:GeneralCell.numbers"]}
{"id": "C127", "title": "The divisors of the volume with a floating-point square root", "statement": "hnfs_from_n_dups looks for divisors up to int(n**0.5), computed in double precision. Divisors are lost exactly if a divisor up to the true square root exceeds that bound; a bound that is too large does no harm. If the power has an error below one unit in the last place, the bound is the exact integer square root for every volume below 2^52 and not below it up to 2^53, so the superlattices of both generators are those of the exact computation in the same order. If the power is rounded to nearest, all divisors are found for every volume below 2^106, although the volume itself is rounded; every statement about the superlattices that holds for all orders of the divisor sets therefore holds for the program. An error below one unit is not enough for larger volumes: at (2^27+1)^2 the divisor 2^27+1 may be missed.", "quantifier": "all volumes below the bound and all square root routines of the stated quality", "why_tests_cant": "the library's power function and 2^52 volumes", "anchors": ["ababe/stru/grid.py:SuperLatticeGenerator.hnfs_from_n_dups", "ababe/stru/grid.py:SuperLatticeGenerator2D.hnfs_from_n_dups", "ababe/stru/grid.py:SuperLatticeGenerator.hnfs_from_n", "ababe/stru/grid.py:SuperLatticeGenerator2D.hnfs_from_n"]}
{"id": "C128", "title": "Ids depend on the integer type of the atomic numbers", "statement": "The id of a structure hashes the bytes of its array. For arrays of one integer type (at least one byte) whose numbers fit it the bytes determine the numbers, so ids clash only if the hash collides on different byte strings; every atomic number of the table fits every integer type. On structures of one type gen_2nodup_gen works as in the model with lists. Fed with structures of several types (say from a file and from spglib) it filters every type for itself, so a structure given again in another type is kept again, although is_equivalent finds the two equal. The same cell in two types has two ids, and a cell has the id of the cell of half the integer width with a vacancy after every atom, whatever the hash.", "quantifier": "all cells, types, generators and inputs", "why_tests_cant": "infinitely many arrays, types and hashes", "anchors": ["ababe/stru/scaffold.py:GeneralCell.id", "ababe/stru/sogen.py:numbers2id", "ababe/stru/sogen.py:OccupyGenerator.gen_2nodup_gen", "ababe/stru/sogen.py:OccupyGenerator._update_isoset"]}
{"id": "C129", "title": "How likely an application run loses structures", "statement": "ocumaker, ocubiter and suplat name every file with four characters drawn from A-Z and 0-9 and overwrite existing files. A finished run of ocumaker or ocubiter keeps every passing structure exactly if the draws differ for any two structures whose comments, as written, are the same, and leaves as many files as there are different pairs of comment and draw; the number of complete draws is the product over the comments of the number of ways to draw without repetition. All structures of ocubiter have the same comment, so without refinement its run is complete exactly if no two draws coincide; the same holds for suplat. For m structures of one comment at most m(m-1)/2 in 36^4 of the draws lose a structure; more than half of the draws lose one exactly if m is at least 1527; and over all draws the files left number 36^4((36^4)^m - (36^4-1)^m) in total.", "quantifier": "all finished runs, numbers of structures and draws", "why_tests_cant": "36^4 draws for every one of the structures", "anchors": ["ababe/cmdline/apps/occupybiter.py:App.run", "ababe/cmdline/apps/occupymaker.py:App.run", "ababe/cmdline/apps/superlattice.py:App.run", "ababe/stru/scaffold.py:GeneralCell.comment"]}
{"id": "C130", "title": "An application run in double precision", "statement": "Run ocubiter or ocumaker with IEEE doubles throughout: the input read, rounded and sorted, the site permutations, the structures, the distance restriction with its bound given as a decimal number, refinement, and writing. The run ends in the same way as the run with exact numbers (normally or with the same exception), creates the same directory and the same files in the same order, the POSCAR texts are identical character by character, and every number in a YAML file is the double nearest to the exact one. This holds for input files with scale factor 1 whose numbers are not close calls for the roundings made, if spglib answers alike for the cell with exact numbers and the one with doubles.", "quantifier": "all input files of the stated kind, options, file systems, hashes, and square roots with an error of 1e-14", "why_tests_cant": "every decision of a run would have to be repeated in exact arithmetic", "anchors": ["ababe/cmdline/apps/occupybiter.py:App.run", "ababe/cmdline/apps/occupymaker.py:App.run", "ababe/io/io.py:GeneralIO.write_file", "ababe/io/io.py:GeneralIO.from_file", "ababe/stru/sogen.py:OccupyGenerator.gen_nodup_of_ele", "ababe/stru/sogen.py:OccupyGenerator.all_speckle_gen_of_ele", "ababe/stru/restriction.py:MinDistanceRestriction.is_satisfied"]}
{"id": "C131", "title": "Grid structures in double precision, and the loss at 80 and 101 layers", "statement": "Positions of a grid structure, their images under symmetry operations, the two roundings and the remainder modulo 1, all computed in IEEE double precision. For sizes up to 990 get_cell returns the lattice vectors rounded entry by entry, coordinates off by at most 1e-14 and the same numbers. If every size d of the grid is at most 990, not divisible by 80 and less than 100 gcd(d, 2000), which includes all sizes up to 100 except 80, get_permutation_cell returns the permutations of exact arithmetic and gen_nodup_cstru yields the same structures in the same order, hence one grid per symmetry class. is_stru_equal, which rounds to ten decimals first, gives the same answer for all sizes up to 990 not divisible by 80. The size 80 must be excluded: 1/80 = 0.0125 lies halfway between two numbers with three decimals and is rounded differently after wrapping around. On the 80 x 2 x 1 grid with the identity and a mirror operation that fixes every site, gen_nodup_cstru with one speckle loses at least one structure in each of ten layers, while exact arithmetic yields every one. On the 101 x 2 x 1 grid it loses one with the speckle in layer 96, as 96/101 = 0.950495... is rounded to 0.9505 first, and that lies halfway again. On the 80 x 2 x 1 grid is_stru_equal reports grids as equal that differ by the place of their speckle within one of the ten layers; exact arithmetic tells them apart.", "quantifier": "all lattices, sizes, species and numbers of speckles; all operations that map the grid to itself, with rotation entries up to 10, translations up to 100, and translations off by at most 1e-9 (1e-11 for is_stru_equal)", "why_tests_cant": "every size has its own rounding errors, and operations are not under the control of a test", "anchors": ["ababe/stru/sogen.py:gen_nodup_cstru", "ababe/stru/sogen.py:get_permutation_cell", "ababe/stru/sogen.py:is_stru_equal", "ababe/stru/scaffold.py:CStru.get_cell"]}
{"id": "C132", "title": "Which space-group numbers the restriction can tell apart", "statement": "SpaceGroupRestriction takes the first run of digits in a name such as 'P-62m (189)' for the space-group number. Over the 230 space-group types: SpaceGroupRestriction([n]) accepts exactly the structures of type n for 30 types only (7 to 9, 47 to 61, 63 to 74); structures of type k are judged rightly for every list exactly if k is 1, 6 to 9 or 47 to 74; [n] accepts any structure at all for 47 numbers n only, so that for example [225] and [194] reject everything; and a list of types accepts exactly the types in it if and only if it contains all or none of the 164 types connected with 1, all or none of the 25 connected with 6, all or none of 62, 189 and 190, and none of 89, 97, 149, 150, 177, 207, 209 and 211.", "quantifier": "all lists of integers and all 230 space-group types", "why_tests_cant": "2^230 lists of types", "anchors": ["ababe/stru/restriction.py:SpaceGroupRestriction.is_satisfied", "ababe/stru/scaffold.py:GeneralCell.get_spacegroup"]}
{"id": "C133", "title": "Comparing grids through the text numpy prints", "statement": "is_stru_equal compares str(array) of atomic numbers. numpy's text (padding to a common width, line breaks after 75 characters, '...' beyond 1000 numbers) determines the numbers of an array up to 1000 entries; for longer arrays two texts are the same exactly if the first three and the last three numbers are, whatever the length. Hence for grids of equal size with up to 1000 sites is_stru_equal is True exactly if some operation carries the second grid onto the first, and for larger grids exactly if some operation carries it onto a grid that agrees with the first in the first three and the last three sites.", "quantifier": "all integer arrays; all grids up to 990 layers per direction, all species of the table, and all operation lists that permute the grid points", "why_tests_cant": "infinitely many arrays and grids, and the failure begins at 1001 sites", "anchors": ["ababe/stru/sogen.py:is_stru_equal", "ababe/stru/sogen.py:get_permutation_cell"]}
{"id": "C134", "title": "The ternary applications in double precision", "statement": "Run ocutenter or ocumakert with IEEE doubles: cells built and sorted, site permutations, ternary structures, the distance restriction, refinement and writing. The run ends in the same way as the run with exact numbers (normally or with the same exception), uses the same temporary names in the same order, and leaves the same directory and files; POSCAR texts are identical character by character and every number in a YAML file is the double nearest to the exact one. This holds for settings with zoom 1 and four decimals, none of them a close call for the roundings made, if spglib answers alike for the cell with exact numbers and the one with doubles, and if refined structures are written as POSCAR.", "quantifier": "all settings, options, numbers of atoms and file systems within these conditions", "why_tests_cant": "infinitely many settings, and the effect of rounding cannot be seen without the exact run to compare with", "anchors": ["ababe/cmdline/apps/occupytenter.py:App.run", "ababe/cmdline/apps/occupymakert.py:App.run", "ababe/stru/sogen.py:OccupyGenerator.gen_nodup_trinary_alloy"]}
