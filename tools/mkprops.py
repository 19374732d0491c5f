#!/usr/bin/env python3
"""Writes /verif/properties.jsonl from the list below (kept as python only so that the JSON is always well formed)."""
import json, os
P = []
def C(title, statement, quantifier, why, *anchors):
    P.append(dict(id="C%02d" % (len(P) + 1), title=title, statement=statement,
                  quantifier=quantifier, why_tests_cant=why, anchors=list(anchors)))

EL, SC, SO, GR = "ababe/stru/element.py", "ababe/stru/scaffold.py", "ababe/stru/sogen.py", "ababe/stru/grid.py"
RE, CL, BU, SI = "ababe/stru/restriction.py", "ababe/stru/clarifier.py", "ababe/stru/buckyball.py", "ababe/stru/site.py"
VA, YA, IO, SIO = "ababe/io/vasp.py", "ababe/io/yaml.py", "ababe/io/io.py", "ababe/stru/io.py"
DS, AR, AG, MC = "ababe/mlearn/dsutils.py", "ababe/mlearn/arrange.py", "ababe/mlearn/arrangeAgent.py", "ababe/mlearn/mcts.py"

# --- elements
C("Element lookup round-trips",
  "For every symbol s that Specie(s) accepts, Specie.from_num(Specie(s).Z) has symbol s and the same Z, and Specie.to_name(Specie(s).Z) == s. "
  "Specie(s) raises KeyError exactly for symbols outside the table; from_num/to_name raise IndexError exactly for numbers outside it (0 gives the ghost).",
  "every string and every integer", "the table is data and the strings/integers are unbounded; a test samples a few elements",
  f"{EL}:Specie", f"{EL}:Specie.from_num", f"{EL}:Specie.to_name", "ababe/stru/pt.json")
C("Element equality is an equivalence decided by atomic number",
  "== on species is reflexive, symmetric, transitive, holds iff the atomic numbers agree, iff the names agree; Specie('G') == GhostSpecie(); != is its negation.",
  "all pairs/triples of species objects", "quantifies over all pairs and triples", f"{EL}:Specie.__eq__", f"{EL}:GhostSpecie")
# --- SitesGrid / CStru
C("Grid read/write discipline",
  "After g[p] = sp, g[p] returns sp, every other position reads as before, and dimensions are unchanged; an access raises IndexError exactly when some coordinate is outside [-dim, dim). "
  "A fresh sea(d,w,l,sp) reads sp everywhere. This holds after any sequence of writes.",
  "every grid size, every position (negative indices included), every history of writes", "unbounded histories and sizes",
  f"{SC}:SitesGrid.__getitem__", f"{SC}:SitesGrid.__setitem__", f"{SC}:SitesGrid.sea")
C("deepCopy gives an independent grid",
  "After h = g.deepCopy(), h equals g, and no later write to h is visible through g (nor the reverse).",
  "every grid, every position written, every write history", "aliasing is only visible for particular write/read sequences",
  f"{SC}:SitesGrid.deepCopy")
C("Grid <-> array round trip",
  "SitesGrid.from_array(arr).to_array() == arr for every 3-d array of known atomic numbers, from_array(g.to_array()) == g for every grid; from_array raises IndexError exactly if some entry is not a known number. Arrays and grids without entries are rejected with ValueError by both.",
  "all array shapes and contents", "all shapes and contents", f"{SC}:SitesGrid.to_array", f"{SC}:SitesGrid.from_array")
C("Speckle enumeration of a grid is exact",
  "For sp != ssp, SitesGrid.gen_speckle(ssp,(d,w,l),sp,noa) yields exactly the d*w*l grids over {ssp,sp} with exactly noa entries sp, each exactly once, C(dwl,noa) in total.",
  "every size, every noa, every pair of species", "the set enumerated is exponential in the size", f"{SC}:SitesGrid.gen_speckle", f"{SC}:CStru.gen_speckle")
C("Grid structure to cell conversion",
  "CStru.get_cell() scales lattice row i by dimension i, lists d*w*l pairwise distinct positions with all coordinates in [0,1), and pairs position (c/d,b/w,a/l) with the atomic number of grid entry [c,b,a]; "
  "get_id_matrix of the result gives the grid's array back; get_midpoint() is a valid grid position.",
  "every grid size >= 1 and every content", "all sizes", f"{SC}:CStru.get_cell", f"{SC}:CStru.get_id_matrix", f"{SC}:CStru.get_midpoint")
C("Neighbour query returns the lattice points within delta",
  "get_neighbors(pos, delta) returns exactly the grid positions other than pos whose Cartesian distance to pos is <= delta (it never contains pos and is symmetric).",
  "all grid sizes, lattices, positions and radii", "all lattices/radii; degenerate result sizes 0 and 1 need to be covered", f"{SC}:CStru.get_neighbors", "ababe/stru/scaffold2d.py:CStru2d.get_neighbors")
# --- GeneralCell
C("Cell construction only reorders sites",
  "GeneralCell(lattice, positions, numbers) keeps the lattice and stores a rearrangement of the given (position, number) pairs; it never loses, duplicates or re-pairs a site. It raises IndexError when there are fewer numbers than positions and rejects an empty site list.",
  "all site lists", "all lists and orders", f"{SC}:GeneralCell.__init__", f"{SC}:GeneralCell._get_new_id_seq")
C("Sites are stored in wrapped coordinate order",
  "The stored sites are sorted lexicographically by (x,y,z) reduced modulo 1 and rounded to 3 decimals, ties kept in input order; every reduced coordinate lies in [0,1).",
  "all site lists, including negative and >1 coordinates", "rounding boundary and ties are measure-zero for random tests", f"{SC}:GeneralCell._get_new_id_seq")
C("Cell identity does not depend on input order or on the periodic image chosen",
  "If sites have pairwise distinct reduced coordinates, then permuting the input sites and moving any site by an integer lattice vector yields the same numbers array (hence the same id) and the same reduced coordinates.",
  "all permutations and integer shifts", "n! permutations and infinitely many shifts", f"{SC}:GeneralCell.id", f"{SC}:GeneralCell.__init__")
C("Re-building a cell from its own data is the identity",
  "GeneralCell(c.lattice, c.positions, m) has positions == c.positions and numbers == m for every numbers array m of the right size. Consequently all cells made by an occupation generator share the initial cell's positions in the same order.",
  "every cell and every decoration", "all cells", f"{SC}:GeneralCell.__init__", f"{SO}:OccupyGenerator.gen_dup_unitary")
C("Symmetry permutations realise the symmetry operations",
  "If the operations returned by spglib map the set of sites to itself modulo the lattice and sites have distinct reduced coordinates, every row p of get_symmetry_permutation() is a permutation of the sites and site p[i] is the one the operation moves onto site i.",
  "all cells, all operation lists satisfying the contract", "all crystals and groups", f"{SC}:GeneralCell.get_symmetry_permutation")
C("is_equivalent is geometric equivalence",
  "Under the same contract with operations forming a group modulo the lattice, is_equivalent(a,b) holds iff some operation maps the decorated crystal a onto the decorated crystal b, and it is reflexive, symmetric and transitive.",
  "all cells with distinct reduced coordinates, all pairs/triples of decorations of the cell", "all decorations, all groups", f"{SO}:OccupyGenerator.is_equivalent")
# --- occupation generator
C("Unitary substitution enumeration is exact",
  "gen_dup_unitary(n, sp) yields exactly the decorations obtained by overwriting an n-subset of all sites with sp, one per subset, C(N,n) in total; if sp does not occur initially each has exactly n sp-sites and they are pairwise different.",
  "all cells, n and species", "exponential output", f"{SO}:OccupyGenerator.gen_dup_unitary")
C("Element substitution enumeration is exact",
  "gen_dup_of_ele(ele, n, sp), ele != sp, yields exactly once each decoration in which exactly n of the sites initially holding ele hold sp and all other sites are unchanged.",
  "all cells, n and species", "exponential output", f"{SO}:OccupyGenerator.gen_dup_of_ele")
C("Wyckoff substitution enumeration is exact",
  "gen_dup(wy, n, sp) overwrites exactly n sites of Wyckoff letter wy with sp, one structure per n-subset, leaving sites with other letters untouched.",
  "all cells, letters, n", "exponential output", f"{SO}:OccupyGenerator.gen_dup")
C("Ternary substitution enumeration is exact",
  "The ternary enumeration underlying gen_nodup_trinary_alloy(sp1,n1,sp2,n2) contains, for every ordered pair of disjoint site sets of sizes n1 and n2, the decoration with sp1 on the first, sp2 on the second and the initial elements elsewhere, and nothing else; C(N,n1)*C(N-n1,n2) in total.",
  "all cells, n1, n2", "exponential output", f"{SO}:OccupyGenerator._gen_dup_trinary_alloy")
C("Deduplication never emits two equivalent structures",
  "Whatever the 64-bit hash does (collisions included), for two structures emitted by gen_2nodup_gen, the later one is not a symmetry image of the earlier one; output order follows input order and every emitted structure comes from the input.",
  "all inputs, all permutation tables, all hash functions", "all inputs and hash behaviours", f"{SO}:OccupyGenerator.gen_2nodup_gen", f"{SO}:OccupyGenerator._update_isoset")
C("Deduplication loses no equivalence class",
  "If the hash is injective on the symmetry images of the input structures, and the table contains the identity, every input structure is a symmetry image of some emitted structure, which is the first of its class.",
  "all inputs, all tables", "all inputs", f"{SO}:OccupyGenerator.gen_2nodup_gen")
C("Non-duplicate generators return one structure per symmetry class",
  "gen_nodup_unitary, gen_nodup, gen_nodup_of_ele and gen_nodup_trinary_alloy output exactly one representative per equivalence class of the corresponding substitution set (no collision, group table).",
  "all cells, element choices and counts", "number of classes is unbounded", f"{SO}:OccupyGenerator.gen_nodup_unitary", f"{SO}:OccupyGenerator.gen_nodup", f"{SO}:OccupyGenerator.gen_nodup_of_ele", f"{SO}:OccupyGenerator.gen_nodup_trinary_alloy")
C("Adding one speckle",
  "gen_add_one_speckle_unitary / gen_add_one_speckle / gen_add_one_speckle_of_ele emit exactly the decorations obtained from an input structure by turning one admissible site (any / given Wyckoff letter / given element; not already sp) into sp, each emitted decoration only once.",
  "all input generators; that nothing is missed, for hashes without collisions among the candidates", "all inputs", f"{SO}:OccupyGenerator.gen_add_one_speckle_unitary", f"{SO}:OccupyGenerator.gen_add_one_speckle", f"{SO}:OccupyGenerator.gen_add_one_speckle_of_ele")
C("Incremental generation reaches every structure",
  "In all_speckle_gen_unitary / all_speckle_gen / all_speckle_gen_of_ele the k-th generator yields exactly one representative of every class of structures obtained by turning k admissible sites of the initial cell into sp.",
  "all cells, all depths k, symmetry operations as in C13 (for the Wyckoff variant keeping the letters), hashes without collisions on the images that occur", "induction over levels; exponential sets", f"{SO}:OccupyGenerator.all_speckle_gen_unitary", f"{SO}:OccupyGenerator.all_speckle_gen", f"{SO}:OccupyGenerator.all_speckle_gen_of_ele")
C("Incremental and direct generation agree",
  "For sp absent from the initial cell, level n of all_speckle_gen_of_ele(N, ele, sp) and gen_nodup_of_ele(ele, n, sp) have the same number of structures and each structure of one is equivalent to exactly one of the other.",
  "all cells and n, hashes without collisions on the images that occur", "cross-method agreement for all inputs", f"{SO}:OccupyGenerator.all_speckle_gen_of_ele", f"{SO}:OccupyGenerator.gen_nodup_of_ele")
C("Lazy consumption order does not matter",
  "However next() calls on the per-level generators are interleaved (skipping, abandoning or alternating levels), each level's generator yields a prefix of the same fixed sequence, namely the one eager evaluation gives.",
  "all schedules of next() calls", "unboundedly many interleavings", f"{SO}:OccupyGenerator.all_speckle_gen_of_ele", f"{SO}:OccupyGenerator.gen_2nodup_gen")
C("Substitution count bookkeeping",
  "Every structure in the k-th generator of all_speckle_gen_* has exactly (initial sp count + k) sp-sites, as reported by get_speckle_num, and the same number of sites and lattice as the initial cell; the number of generators is max(0, n - initial sp count).",
  "all cells and levels", "all levels", f"{SC}:GeneralCell.get_speckle_num", f"{SO}:OccupyGenerator.all_speckle_gen_unitary")
# --- grid.py
C("Divisor enumeration",
  "The factor set used to build Hermite matrices of n is exactly the set of positive divisors of n for n >= 1; n = 0 raises.",
  "all n", "all n", f"{GR}:SuperLatticeGenerator.hnfs_from_n_dups")
C("Hermite normal form enumeration is exact",
  "hnfs_from_n_dups(cell, n) lists exactly the integer matrices [[a,b,d],[0,c,e],[0,0,f]] with a*c*f = n, 0<=b<c, 0<=d,e<f, each once, whatever the iteration order of Python sets.",
  "all n >= 1", "all n", f"{GR}:SuperLatticeGenerator.hnfs_from_n_dups")
C("Every superlattice of index n is listed exactly once",
  "For every subgroup of Z^3 of index n there is exactly one matrix in hnfs_from_n_dups(cell, n) whose rows generate it, and every listed matrix generates a subgroup of index n.",
  "all subgroups of Z^3 of all finite indices", "infinitely many sublattices", f"{GR}:SuperLatticeGenerator.hnfs_from_n_dups")
C("Superlattice equality test",
  "For superlattices of the same index n, H1 == H2 holds iff some rotation of the parent cell maps one sublattice onto the other.",
  "all n, all HNF pairs, all rotation lists", "needs all n; fails only for large n", f"{GR}:SuperLatticeCell.__eq__")
C("Non-duplicate superlattices form a transversal",
  "hnfs_from_n(cell, n) contains, for every index-n sublattice, exactly one listed superlattice related to it by a rotation of the parent's point group.",
  "all n < 2000 (the tolerance bound of C30), all finite rotation groups", "all n and groups", f"{GR}:SuperLatticeGenerator.hnfs_from_n")
C("Interior points of a superlattice cell",
  "get_frac_from_H(H) returns exactly n = det H fractional points, all in [0,1)^3, pairwise incongruent, one for each coset of Z^3 modulo the superlattice.",
  "all upper triangular H with non-negative entries and positive diagonal, det below the tolerance bound 100000", "all H", f"{GR}:SuperLatticeCell.get_frac_from_H", f"{SC}:GeneralCell.get_frac_from_mat")
C("A superlattice cell describes the same crystal",
  "to_general_cell() yields N*n sites with matching numbers such that the infinite set of (Cartesian position, element) it generates equals that of the unit cell, with no site repeated, and cell volume multiplied by n.",
  "all unit cells, all H with det below the tolerance bound 100000", "infinite crystals", f"{GR}:SuperLatticeCell.to_general_cell")
C("A supercell describes the same crystal",
  "GeneralCell.supercell(M) for a positive diagonal (or non-negative upper triangular) M yields the same infinite decorated crystal, with N*det M sites.",
  "all cells and scale matrices in the class, det below the tolerance bound 100000", "infinite crystals", f"{SC}:GeneralCell.supercell", "ababe/cmdline/runatilib.py:supcell")
C("2D superlattice enumeration is exact",
  "SuperLatticeGenerator2D.hnfs_from_n_dups(cell, n) lists exactly once a matrix for every index-n subgroup of Z^3 that contains (0,0,1) and nothing else.",
  "all n, all such subgroups", "infinitely many", f"{GR}:SuperLatticeGenerator2D.hnfs_from_n_dups")
# --- restrictions
C("Minimum-distance restriction checks neighbouring images",
  "MinDistanceRestriction((ele,d)).is_satisfied(cell) is True iff every two ele atoms, over all periodic image offsets in {-1,0,1}^3 (an atom against itself included, zero offset excluded), are more than d apart; it raises ValueError iff the cell has no ele atom.",
  "all cells and thresholds", "all lattices and thresholds", f"{RE}:MinDistanceRestriction.is_satisfied", f"{SC}:GeneralCell.supercell", f"{SC}:GeneralCell.get_cartesian")
C("Minimum-distance restriction bounds the true periodic distance",
  "If is_satisfied returns True then no two ele atoms of the infinite crystal are within d of each other.",
  "all cells", "fails only for skewed cells", f"{RE}:MinDistanceRestriction.is_satisfied")
C("Space-group restriction selects by space-group number",
  "SpaceGroupRestriction(l).is_satisfied(cell) is True iff the number in parentheses of the cell's space group ('Symbol (N)') is in l.",
  "all space-group strings", "depends on the symbol's characters", f"{RE}:SpaceGroupRestriction.is_satisfied")
# --- clarifiers / ModifiedCell
C("Sphere query",
  "get_points_incell_insphere(center, r, ele) returns exactly the indices of sites of element ele (any if None) having a periodic image with offset in {-1,0,1}^3 closer than r to center.",
  "all cells, centers, radii", "all geometry", f"{SC}:ModifiedCell.get_points_incell_insphere", f"{SC}:ModifiedCell.in_euclidean_discance")
C("Center-based removal",
  "AtomRemoveClarifier.clarify keeps, in order and unchanged, exactly the sites not within r of any center (or not of the given element); it is idempotent and independent of the order of centers.",
  "all cells, center lists, radii", "all histories of removals", f"{CL}:AtomRemoveClarifier.clarify", f"{SC}:ModifiedCell.remove_sites")
C("Element-based removal uses the original centers",
  "VerboseAtomRemoveClarifier.clarify keeps, in order, exactly the sites that are not (of the removed element and within r of some site of the center element of the original cell), even though it removes while iterating.",
  "all cells", "iteration-while-removing only fails for particular layouts", f"{CL}:VerboseAtomRemoveClarifier.clarify", f"{SC}:ModifiedCell.__iter__", f"{SC}:ModifiedCell.remove_sites")
C("ModifiedCell behaves as a list of sites",
  "Any sequence of append, insert, pop, extend, item assignment/deletion/read, remove_sites, len and iteration on a ModifiedCell has the results of the same operations on a plain Python list of sites (including negative indices and IndexError).",
  "all operation histories", "all histories", f"{SC}:ModifiedCell")
C("ModifiedCell <-> GeneralCell conversion",
  "ModifiedCell.from_gcell(c).to_gcell() equals c (lattice, positions, numbers) for every cell of known elements, and the ModifiedCell lists the sites in the cell's order; it raises IndexError iff some number is unknown.",
  "all cells", "all cells", f"{SC}:ModifiedCell.from_gcell", f"{SC}:ModifiedCell.to_gcell")
C("Translating a site",
  "translate_sites(i, v) moves the Cartesian position of the i-th site by exactly v (up to rounding) and touches no other site's position nor any element; perturb(d) moves every site by a vector of length |d| and changes no element or lattice.",
  "all cells with invertible lattice, all vectors/random draws", "all random draws", f"{SC}:ModifiedCell.translate_sites", f"{SC}:ModifiedCell.perturb")
C("copy() is independent, shared Site objects are not",
  "After m2 = m.copy(), no sequence of mutations of m2 (site translation included) is visible through m; while a Site appended to two cells is shared by both.",
  "all cells, all mutation histories", "aliasing", f"{SC}:ModifiedCell.copy", f"{SC}:ModifiedCell.append")
# --- IO
C("POSCAR write/read round trip",
  "Reading back the text written by VaspOutput gives lattice and positions rounded (6 then 4 decimals) with the same elements, ghosts removed and sites stably sorted by atomic number, for every cell with at least one real atom.",
  "all cells of known elements", "all texts/values", f"{VA}:VaspOutput.get_string", f"{VA}:VaspInput.from_string")
C("POSCAR internal consistency",
  "In every POSCAR written, the species line lists the occurring real elements once in increasing atomic number, the counts line gives their multiplicities, and the coordinate lines come in blocks matching these counts, one line per real atom, none for ghosts.",
  "all cells of known elements", "all decorations", f"{VA}:VaspOutput.get_string", f"{SIO}:VaspPOSCAR.get_string")
C("Cell comment",
  "comment concatenates symbol and multiplicity of each real element in increasing atomic number, and is the empty string iff all sites are ghosts.",
  "all cells of known elements", "all decorations", f"{SC}:GeneralCell.comment")
C("YAML data round trip",
  "Reading the mapping written by YamlOutput reproduces numbers exactly (ghosts included), and lattice and positions rounded to 6 then 4 decimals; reading scales the lattice by zoom.",
  "all cells of known elements, all zoom factors", "all values", f"{YA}:YamlOutput.get_string", f"{YA}:YamlInput.from_string")
C("Lattice scale factor",
  "VaspInput multiplies the lattice by a non-negative scale factor; a negative factor -V rescales it so that the cell volume becomes exactly V.",
  "all lattices and scale factors", "all reals", f"{VA}:VaspInput.from_string")
C("File format dispatch",
  "write_file/from_file choose YAML iff fmt is 'yaml' or the lower-cased name contains '.yaml', otherwise VASP iff fmt is 'vasp' or the name ends in '.vasp' (any case) or contains 'POSCAR', and otherwise fail; an explicit format is honoured.",
  "all file names and fmt strings (cells of known elements)", "all strings", f"{IO}:GeneralIO.write_file", "ababe/io/io.py:GeneralIO.from_file")
# --- mlearn
C("RandomPopSet is a set",
  "Any sequence of add/push/discard/remove/random_pop/in/len/iteration on a RandomPopSet behaves as on a mathematical set; the internal index always matches the list.",
  "all operation histories, all random choices", "all histories", f"{DS}:RandomPopSet")
C("random_pop removes what it returns",
  "On a non-empty set random_pop returns a member and removes exactly it, for every random index; every member can be returned; on the empty set it returns None and changes nothing.",
  "all sets, all random indices", "all random outcomes", f"{DS}:RandomPopSet.random_pop", f"{DS}:RandomPopSet.get_random")
C("Random walk arrangement",
  "When random_walk_arrange returns, the path has no repeated position, starts at the start position, has the goal length, and each later position is a neighbour of an earlier one.",
  "all problems whose neighbour sets exclude the position itself, all random choices", "all random choices", f"{AR}:random_walk_arrange", f"{AG}:Boron2dArrangeProblem")
C("MCTS node value is the mean of its evaluations",
  "After any sequence of playouts, a node's Q is the arithmetic mean of the leaf values backed up through it and n_visits is their number.",
  "all update histories", "all histories", f"{MC}:TreeNode.update", f"{MC}:TreeNode.update_recursive")
C("MCTS visit counts are consistent",
  "After any sequence of playouts from a fresh tree, a node's visit count is at least the sum of its children's, equals the number of playouts whose descent passed through it, and the root's equals the number of playouts.",
  "all policies, value functions and playout counts; on Python 2 (dict.iteritems; on Python 3 select raises AttributeError, C57)", "all histories", f"{MC}:MCTS._playout", f"{MC}:TreeNode.update_recursive")
C("MCTS expansion preserves existing children",
  "expand never replaces or re-initialises an existing child, adds each missing action once with its first-listed prior, and get_move returns a child of the root with maximal visit count.",
  "all trees and action lists; get_move on Python 2 (on Python 3 it raises AttributeError)", "all histories", f"{MC}:TreeNode.expand", f"{MC}:MCTS.get_move")
C("MCTS tree reuse",
  "update_with_move(a) keeps the statistics of the whole subtree under a and makes it the root (or starts afresh if a was never expanded); later backups never touch nodes above the new root.",
  "all trees, moves and later histories", "all histories", f"{MC}:MCTS.update_with_move")
# --- buckyball
C("The buckyball permutation table is a group",
  "The 120 rows of the shipped table are pairwise different permutations of the 60 sites containing the identity and closed under composition and inversion.",
  "all rows / pairs of rows", "14400 pairs", f"{BU}:Structure.get_symmetry_permutation", "ababe/stru/bucky_permu_table.npy")
C("Buckyball table rows are symmetries of the molecule",
  "Every row of the table maps the molecule's site list (in the order Structure stores it) onto itself preserving bond distances.",
  "all rows and site pairs", "120*3600 pairs", f"{BU}:Structure.__init__", "ababe/stru/buckyball.json")
C("Buckyball incremental generation",
  "Structure.all_speckle_gen(b, n, sp) yields first b, then for each k one representative per class (w.r.t. the table) of decorations with k more sp-sites, provided the 32-bit hash does not collide on them; never two equivalent ones in any case.",
  "all initial decorations, levels and hash functions", "exponential sets", f"{BU}:Structure.all_speckle_gen", f"{BU}:Structure.to_nodup_generator", f"{BU}:Structure.add_one_speckle_generator")
# --- module-level sogen
C("Grid structure generation without duplicates",
  "gen_nodup_cstru(lattice, sea, size, speckle, num) yields grids with exactly num speckles, one per class under the symmetry permutations of the empty grid.",
  "all sizes up to 990 in each direction (false at 991 and at every size beyond 1000, where two layers share their 3-decimal sort key), all counts, symmetry operations as in C13", "exponential sets", f"{SO}:gen_nodup_cstru", f"{SO}:_update_isoset", f"{SO}:_get_atom_seq_identifier")
C("Structure equality under operations",
  "is_stru_equal(A, B, ops) is True iff some operation in ops applied to B gives, after wrapping and sorting, the atom sequence of A.",
  "all structures and operation lists", "fails only beyond 1000 atoms", f"{SO}:is_stru_equal", f"{SO}:_get_id_seq")
C("Speckle disjunction restriction is periodic",
  "For the lattices bcc, fcc, scc and triflat, is_speckle_disjunct(s, sp) is True iff no two sp sites of the infinite periodic grid are within distance 1.01.",
  "all grid sizes and contents", "periodic images at all boundaries", f"{SO}:is_speckle_disjunct", f"{SO}:_pool_sites", f"{SO}:_min_dist", f"{SO}:lat_dict")
# --- apps
C("Ternary application covers all compositions",
  "ocumakert enumerates exactly the composition pairs (n1,n2) with n1,n2 >= 1 and n1+n2 < n, each once.",
  "all n; for completeness of the structures, symmetry operations as in C13 and collision-free hashes", "all n", "ababe/cmdline/apps/occupymakert.py:App.run")
C("Every generated structure ends up in its own file",
  "After ocumaker/ocubiter/suplat finish, the output directory contains one file per structure that satisfied the filters, with that structure's content.",
  "all structure sequences and all random suffixes", "random file-name collisions", "ababe/cmdline/apps/occupymaker.py:App.run", "ababe/cmdline/apps/occupybiter.py:App.run", "ababe/cmdline/apps/superlattice.py:App.run")
C("Application filters",
  "ocubiter/ocumaker/ocutenter write a structure iff it passes the primitivity filter (when enabled) and the first distance restriction given (when given).",
  "all option combinations and structures", "all combinations", "ababe/cmdline/apps/occupybiter.py:App.run", "ababe/cmdline/apps/occupytenter.py:App.run", "ababe/cmdline/apps/occupymaker.py:App.run")

# --- added while the model grew
C("Equality of ModifiedCells",
  "cell == cell.copy() always; for two cells with equally many sites, == is True iff lattice entries, positions and atomic numbers agree entry by entry within numpy's tolerance (1e-8 + 1e-5|b|); cells with different numbers of sites are different.",
  "all cells", "sizes that broadcast", f"{SC}:ModifiedCell.__eq__")
C("Assigning to a site",
  "site.element = e / site.position = p changes that attribute of that site object in every cell that holds it, and nothing else.",
  "all heaps, sites and values", "aliasing patterns", "ababe/stru/site.py:Site.element", "ababe/stru/site.py:Site.position")
C("Inherited list methods of ModifiedCell",
  "reverse, index, remove, count, in, reversed and clear of a ModifiedCell act like the same operations on the plain list of its sites compared with Site equality.",
  "all cells and sites", "all lengths and duplicates", f"{SC}:ModifiedCell.__getitem__", f"{SC}:ModifiedCell.__setitem__", f"{SC}:ModifiedCell.__delitem__")
C("MCTS descent is greedy",
  "Every playout of the search follows, from the root, at each expanded node a child maximising (mean backed-up value + exploration bonus), stopping at the depth limit or at a state without actions.",
  "all trees, games, depths and histories", "all histories", f"{MC}:MCTS._playout", f"{MC}:TreeNode.select")
C("MCTS leaf values",
  "The value backed up by a playout is (1-lmbda)*value_fn(leaf) + lmbda*rollout(leaf) with the rollout in {-1,0,1}; if |value_fn| <= 1 and 0 <= lmbda <= 1 every node's Q stays within [-1,1].",
  "all games and histories", "all histories", f"{MC}:MCTS._playout", f"{MC}:MCTS._evaluate_rollout")
C("Extending a cell by itself",
  "cell.extend(cell) on a cell with at least one site never returns (it keeps appending); on an empty cell it returns immediately.",
  "all cells and step counts", "non-termination", f"{SC}:ModifiedCell.insert")
C("Direct buckyball generation",
  "gen_speckle(sp, n) yields every carbon/sp decoration of the 60 sites with n sp sites exactly once (60 choose n), and, without hash collisions, filtering it gives as many structures as the incremental generation, each the image of one of the other. help_add_one_speckle(l, sp) yields exactly the decorations with one site not holding sp changed to sp, each once.",
  "all species other than carbon and all n", "numbers like 60 choose 30", f"{BU}:Structure.gen_speckle", f"{BU}:Structure.all_speckle_gen", f"{BU}:Structure.to_nodup_generator", f"{BU}:Structure.help_add_one_speckle")

AP = "ababe/cmdline/apps"
C("Applications cover all inequivalent structures",
  "Given a correct symmetry operation list, a finished ocubiter run goes through exactly one representative of every symmetry class of ways to replace the asked number of target atoms, and a finished ocumaker run does so for every count 1, 2, ... up to the asked number; lattice and sites are those of the input cell.",
  "all input files whose cell has distinct reduced coordinates, options, symmetry lists, collision-free hashes", "numbers of structures", f"{AP}/occupybiter.py:App.run", f"{AP}/occupymaker.py:App.run")
C("Applications write the format asked for",
  "A structure written by ocumaker/ocubiter with output mode yaml is a YAML mapping; with output mode vasp it is a POSCAR iff no part of its path contains '.yaml'.",
  "all working directories, comments, structures", "paths with .yaml in a directory name", f"{AP}/occupymaker.py:App.run", f"{AP}/occupybiter.py:App.run", f"{IO}:GeneralIO.write_file")
C("Existing output directories and other files",
  "If its output path exists, each of the four occupation applications raises NameError and changes no file; and whether or not a run finishes, files that are not structure files of the new output directory keep their content.",
  "all file systems, options, structures", "failure midway", f"{AP}/occupymaker.py:App.run", f"{AP}/occupybiter.py:App.run", f"{AP}/occupytenter.py:App.run", f"{AP}/occupymakert.py:App.run")

C("Refined and shaped cells keep the crystal",
  "get_refined_cell and get_refined_pcell return exactly the crystal spglib's standardisation answers with (TypeError if it fails). get_shaped_cell: if the standardisation of the cell with every atom labelled by its index is that labelled crystal moved by a map of space, the result has the new lattice, the same number of atoms of every element, and is the original crystal moved by that map.",
  "all cells, answers of the standardisation and maps", "atoms can be relabelled or dropped in the index round trip", f"{SC}:GeneralCell.get_refined_cell", f"{SC}:GeneralCell.get_refined_pcell", f"{SC}:GeneralCell.get_shaped_cell")
C("Commands on one structure",
  "atclear writes <stem>_ACLR.vasp holding the POSCAR of the cell without exactly the atoms of the given element that have a centre atom closer than the radius (ValueError if none is left); perturb writes <stem>_PURB.vasp with every atom displaced by the given Cartesian length; supcell puts out the a x b x c enlarged cell of the same crystal and pcell the standardised primitive cell, printed or in a file whose format is the one asked for, whatever the input path.",
  "all input files of known elements, element pairs, radii, scales (product below 100000), random vectors and output modes", "all cells and paths", "ababe/cmdline/runatilib.py:atclear", "ababe/cmdline/runatilib.py:perturb", "ababe/cmdline/runatilib.py:supcell", "ababe/cmdline/runatilib.py:pcell", f"{AP}/atomclarifier.py:App.run", f"{AP}/atomperturb.py:App.run")

S2 = "ababe/stru/scaffold2d.py"
C("Two-dimensional grids",
  "CStru2d.get_neighbors(pos, delta): KeyError outside the grid; with at least two other grid points within Cartesian distance delta the result is exactly their set; with exactly one it is the set of that point's coordinates; with none TypeError (ValueError on a one-point grid). sea(w,l,sp) has size w x l, middle (w//2,l//2) and array full of sp.Z (IndexError for w <= 0); grids are equal iff their atomic numbers agree row by row; from_array always raises.",
  "all lattices, grid sizes, positions, radii, species", "all radii and lattices; degenerate result sizes", f"{S2}:CStru2d.get_neighbors", f"{S2}:SitesGrid2d.sea", f"{S2}:SitesGrid2d.get_array", f"{S2}:SitesGrid2d.__eq__", f"{S2}:SitesGrid2d.from_array")
C("Shipped arrangement problems always reach their goal",
  "For n >= 2, random_walk_arrange on Boron2dArrangeProblem(n) and FCC3dArrangeProblem(n) returns n pairwise different positions of the n^2 (n^3) grid, beginning in the middle, each later one adjacent to an earlier one (one of the six triangular-lattice directions; distance <= 2.1 on the fcc lattice). n = 1 raises ValueError, n <= 0 IndexError.",
  "all n, all random choices, all set iteration orders", "random walk with unboundedly many outcomes", f"{AG}:Boron2dArrangeProblem", f"{AG}:FCC3dArrangeProblem", f"{AR}:random_walk_arrange")

C("Number of structures generated",
  "The number of structures yielded by gen_nodup_unitary, gen_nodup_of_ele, gen_nodup and gen_nodup_trinary_alloy, times the number of site permutations brought about by the symmetry operations, equals the sum over these permutations of the number of candidate structures that the permutation leaves unchanged (Cauchy-Frobenius).",
  "all cells, correct operation lists that keep elements (Wyckoff letters), counts and species, collision-free hash", "counts over unbounded cells", f"{SO}:OccupyGenerator.gen_nodup_unitary", f"{SO}:OccupyGenerator.gen_nodup_of_ele", f"{SO}:OccupyGenerator.gen_nodup", f"{SO}:OccupyGenerator.gen_nodup_trinary_alloy")
C("Numbers of substituted C60 isomers",
  "As long as the digests of the decorations do not collide, level k of Structure.all_speckle_gen on C60 holds exactly the Polya number of k-fold substituted isomers of the icosahedral group I_h: 1, 23, 303, 4190, 45718, 418470, ..., and 985538239868528 for k = 30.",
  "all levels, all substituents other than carbon, all collision-free hashes", "level 30 alone has about 10^15 structures", f"{BU}:Structure.all_speckle_gen")
C("Numbers of superlattices",
  "hnfs_from_n_dups yields exactly sum over d | n of d * sigma(d) superlattices of index n, which is the number of subgroups of index n of Z^3; the two-dimensional generator yields sigma(n).",
  "all n > 0, all unit cells, all set iteration orders", "all n", f"{GR}:SuperLatticeGenerator.hnfs_from_n_dups", f"{GR}:SuperLatticeGenerator2D.hnfs_from_n_dups")
C("Random grids and grids as general cells",
  "SitesGrid.random_fill(bsp, size, sp) has the given size and holds sp where the random array is 1 and bsp where it is 0, so every grid of bsp and sp can come out. CStru.get_gcell() has the lattice scaled by depth, width and length, exactly one atom for each grid point with its element, and no others; for grids up to 990 points long in each direction its atoms come in the row-major order of get_array().",
  "all sizes, species, random arrays, lattices and grids", "random contents; sizes", f"{SC}:SitesGrid.random_fill", f"{SC}:CStru.get_gcell")
C("Molecule names identify decorations",
  "get_name() of two buckyball structures is equal iff their atomic numbers agree site by site (numbers within 64 bits).",
  "all pairs of structures", "all pairs", f"{BU}:Structure.get_name")

C("Double precision does not change cells and site permutations",
  "With every sum, product, rounding and remainder done in IEEE double precision, GeneralCell(lattice, positions, numbers), get_symmetry_permutation and OccupyGenerator(cell) return the same order of atoms, the same numbers and the same site permutations as with exact arithmetic, provided no coordinate that gets rounded to three decimals is within 10^-9 of a tie, or the coordinates are multiples of 2^-20. At a tie (x = 1/16) this fails: changing a coordinate by 2^-56 changes the order of the atoms.",
  "all cells with coordinates up to 10^5 (10^2 for symmetry operations), operations with entries up to 10", "needs all positions near rounding boundaries", f"{SC}:GeneralCell.__init__", f"{SC}:GeneralCell.get_symmetry_permutation", f"{SO}:OccupyGenerator.__init__")
C("Double precision does not change superlattices",
  "SuperLatticeCell.__eq__ in double precision is True exactly when a rotation maps one superlattice onto the other, for indices below 2000 and matrix products computed to within 1e-8; get_frac_from_H / get_frac_from_mat select exactly the interior points for indices below 90000 and products computed to within 1e-6; to_general_cell and supercell then list the same atoms in the same order at faithful positions.",
  "all superlattice matrices, cells and inexact inverses within the stated error", "all matrices and all rounding errors of the linear algebra library", f"{GR}:SuperLatticeCell.__eq__", f"{GR}:SuperLatticeCell.get_frac_from_H", f"{GR}:SuperLatticeCell.to_general_cell", f"{SC}:GeneralCell.supercell", f"{SC}:GeneralCell.get_frac_from_mat")

C("Every derivative structure is listed",
  "Take any crystal obtained from a parent crystal by replacing some atoms by sp (or by sp1 and sp2), periodically along a sublattice of index n of the parent lattice. Then hnfs_from_n(parent, n) yields a superlattice s and there is a number k (k1, k2) such that OccupyGenerator(s.to_general_cell()).gen_nodup_unitary(k, sp) (gen_nodup_trinary_alloy) yields a structure whose infinite crystal is the given one up to a symmetry operation of the parent and one of the enlarged cell. Conversely every structure so listed is a crystal of that kind.",
  "all parent cells, correct operation lists, indices 0 < n < 2000, sublattices, periodic decorations, set iteration orders; sites of the enlarged cell distinct after rounding to three decimals, collision-free hashes", "infinite crystals; all sublattices and decorations", f"{GR}:SuperLatticeGenerator.hnfs_from_n", f"{GR}:SuperLatticeCell.to_general_cell", f"{SO}:OccupyGenerator.gen_nodup_unitary", f"{SO}:OccupyGenerator.gen_nodup_trinary_alloy")
C("Application output can be read back and covers everything",
  "After a finished ocubiter, ocumaker, ocutenter or ocumakert run every way to place the asked numbers of new atoms is symmetry-equivalent to a structure of the input cell's lattice and sites which, if it passes the filters (and after refinement if asked), is held by a file; GeneralIO.from_file of that file returns the lattice and the real atoms of that structure with every number rounded to at most four decimals. The same holds for every superlattice file of suplat. (For the binary applications: if no two random file names coincide; for ternary vasp output: if no part of the path contains '.yaml'.)",
  "all inputs whose cell has distinct reduced coordinates, options, directory contents, random names, correct operation lists, collision-free hashes", "all runs", f"{AP}/occupybiter.py:App.run", f"{AP}/occupymaker.py:App.run", f"{AP}/occupytenter.py:App.run", f"{AP}/occupymakert.py:App.run", f"{AP}/superlattice.py:App.run", "ababe/io/io.py:GeneralIO.from_file")
C("The filters miss no wanted structure",
  "The applications first pick one decoration of every symmetry class and then apply the filters (primitive cells only; atoms of one element farther apart than d). In a cell whose edges are orthogonal, or which is wide compared to d, with isometric symmetry operations, the outcome of the filters is the same for all members of a class: the structures recorded by ocubiter, ocumaker, ocutenter and ocumakert are exactly one representative of every class of decorations whose infinite crystal is primitive (if asked), contains the restricted element and keeps its atoms farther apart than d. In a skew cell this is false: of two mirror images MinDistanceRestriction.is_satisfied can accept one and reject the other.",
  "all inputs, options, cells with distinct sites in [0,1), correct operation lists, collision-free hashes", "all decorations and all symmetry images; distances over the infinite crystal", f"{RE}:MinDistanceRestriction.is_satisfied", f"{AP}/occupybiter.py:App.run", f"{AP}/occupymaker.py:App.run", f"{AP}/occupytenter.py:App.run", f"{AP}/occupymakert.py:App.run", f"{SC}:GeneralCell.is_primitive")
C("Which actions the tree search tries",
  "The score of a position changes only when a playout passes through it. So an action whose score exceeds every leaf value is tried again after boundedly many playouts; but an action b whose score is below that of a sibling a, below the mean of a and below every leaf value after a is never tried again, however many playouts are made. In a new search get_move does not return b whenever the prior of b is below that of a and below every leaf value after a, even if b leads to the best value in every continuation (so the most visited action does not approach the best one as n_playout grows).",
  "all games, histories of playouts and steps forward, states, depths, numbers of playouts; c_puct >= 0; on Python 2 (on Python 3 get_move raises, C57)", "statements about every number of playouts", f"{MC}:MCTS._playout", f"{MC}:MCTS.get_move", f"{MC}:TreeNode.update", f"{MC}:TreeNode.select")
C("Double precision does not change the verdict of the distance restriction",
  "MinDistanceRestriction((ele, d)).is_satisfied(cell) with every operation done in IEEE double precision (and any square root accurate to 10^-14) returns what exact arithmetic gives, including the ValueError for an absent element, provided no squared distance between atoms of the element in the cell and its neighbours lies within 10^-6 of d^2. For close calls this fails: two gold atoms at heights 0 and 0.2 of a 5 Angstrom cell with d = 1 are rejected although the distance 5 * float(0.2) exceeds 1.",
  "all cells with lattice entries up to 100 and coordinates in [-1, 1], elements and bounds", "all positions, all rounding errors", f"{RE}:MinDistanceRestriction.is_satisfied", f"{SC}:GeneralCell.get_cartesian", f"{SC}:GeneralCell.supercell")

C("Files written and read in double precision",
  "With every operation in IEEE double precision: writing a cell as POSCAR or YAML and reading it back yields, for every lattice entry and coordinate, the double nearest to the exact result (rounded to six, then to four decimals), unless the six-decimal value ends in 50 (and, for YAML, provided no value is within 10^-9 of a tie at six decimals). A cell that was read from a file (YAML with any zoom, POSCAR of real atoms with scale factor 1) is not changed by writing and reading it again: YAML returns the same cell bit for bit, POSCAR the same lattice and the same sites. The exception is real: coordinate 0.00015 comes back as 0.0001 in double precision and as 0.0002 in exact arithmetic.",
  "all cells of known elements and files with entries up to 10^5 in absolute value", "all coordinates, all rounding errors, files of any number of sites", f"{VA}:VaspOutput.get_string", f"{VA}:VaspInput.from_string", f"{YA}:YamlOutput.get_string", f"{YA}:YamlInput.from_string")

C("Arrays shared between cells, and what spglib sees",
  "A cell keeps the lattice array it is given but copies positions and numbers: later writes into the caller's positions and numbers arrays never change it, and all cells built on one lattice array have equal lattices after any history. Assigning cell.numbers = arr changes numbers, comment and id of this cell only; spg_cell, and with it everything spglib computes (symmetry, permutations, Wyckoff letters, primitivity), keeps the old numbers however often numbers are assigned. While numbers are never assigned the two views agree whatever is written in place. A generator made from a cell with assigned numbers can therefore yield two structures that are translates of each other.",
  "all histories of array creation, construction, assignment and in-place writes", "aliasing shows only in particular interleavings; all histories", f"{SC}:GeneralCell.__init__", f"{SC}:GeneralCell.numbers", f"{SC}:GeneralCell.get_symmetry_permutation")

C("Numbers of superlattices up to symmetry",
  "hnfs_from_n(cell, n) yields (1/|G|) * sum over the rotations r of the number of sublattices of index n that r maps to itself; hnfs_from_n_2D yields the same for sublattices containing the third axis, if the rotations keep that axis up to sign. In a crystal whose only rotations are the identity and the inversion it yields all sum over d | n of d * sigma(d) superlattices.",
  "all cells, point groups of any order, indices n < 2000", "all n and all point groups; the count is a global property of the output", f"{GR}:SuperLatticeGenerator.hnfs_from_n", f"{GR}:SuperLatticeGenerator2D.hnfs_from_n")

C("What an application run leaves behind when it stops half way",
  "`ocubiter` and `ocumaker` treat the generated structures in order. The generators never raise on a cell that could be read, whatever symmetry operations spglib returns. The run ends at the first structure that raises - spglib fails on it, the distance restriction is about an element it does not contain, its refined form is not a cell, or it has an unknown atomic number - with that exception, and the files are then exactly the records of the passing structures before it. Without refinement and with a working spglib the run finishes exactly if every structure left by the primitivity test contains the restricted element; a restriction on the replaced element with all atoms replaced always aborts with ValueError and an empty directory.",
  "all input files, options, file systems, outside worlds", "a test can show one aborted run; it cannot show for all inputs and options which structure stops the run and what has been written by then", f"{AP}/occupybiter.py:App.run", f"{AP}/occupymaker.py:App.run")

C("Which texts and mappings are read as cells",
  "VaspInput accepts a text exactly if, blank lines removed, line 2 is a number, lines 3-5 are three numbers each, line 6 holds known element symbols, line 7 integers, no more of them than symbols, every line from the ninth on starts with three numbers, there is at least one such line and no more than atoms declared. Lines 1 and 8 (comment, direct/cartesian) are not looked at. Fewer sites than declared atoms are accepted, the surplus atoms being dropped. Texts of fewer than nine non-blank lines are rejected. YamlInput accepts a mapping exactly if lattice, zoom, positions and numbers are there, with at least one position and no fewer numbers than positions; a missing key is a KeyError.",
  "all texts, all mappings", "the set of accepted texts is infinite and so is its complement", f"{VA}:VaspInput.from_string", f"{VA}:VaspInput.get_cell", f"{YA}:YamlInput.from_string")

C("Which words in input files are numbers",
  "A word or line of a POSCAR file is taken as the number x exactly if it is blanks, an optional sign, digits with an optional point and at least one digit, an optional exponent, blanks, with single underscores allowed between digits, and denotes x; as the count n exactly if it is blanks, an optional sign and such digits. Everything else is a ValueError. No text denotes two numbers.",
  "all texts", "the accepted words form an infinite language, defined by a grammar", f"{VA}:VaspInput.from_string")

C("Ternary applications that stop half way",
  "On valid settings and a new output path the ternary applications treat the structures in order up to the first one that raises, or for which no temporary name is free; exactly the passing structures before it have been written, each to a new file of its own, and the run ends with that exception, or normally if there is none. Negative numbers of substitutions and unknown species leave an empty directory and a ValueError or KeyError. Without refinement ocumakert finishes exactly if every primitive structure contains the element of the restriction, which holds for the inserted and the target elements but can fail for other elements of the cell.",
  "all cells, settings, random names and file systems", "the states left behind by interrupted runs are not enumerated by tests", f"{AP}/occupytenter.py:App.run", f"{AP}/occupymakert.py:App.run")

C("Derivative structures of layers",
  "Every crystal that arises from a parent by replacing atoms by one or two species, periodically along a sublattice of index n that contains the third axis, is found, up to symmetry, among the structures listed for the 2D superlattices of index n; everything listed is such a crystal; the cells keep the third lattice vector of the parent and have the other two in the plane of the first two.",
  "all parent cells with correct symmetry operations, volumes below 2000 (the bound of C31) and decorations; sites of the enlarged cell distinct after rounding to three decimals, collision-free hashes", "quantifies over all sublattices and all periodic decorations", f"{GR}:SuperLatticeGenerator2D.hnfs_from_n", f"{SO}:OccupyGenerator.gen_nodup_unitary", f"{SO}:OccupyGenerator.gen_nodup_trinary_alloy")

C("Superlattice runs that stop half way",
  "suplat refuses before touching the file system if spglib fails, the volume is 0, or the cell is not primitive. If the name of the output directory is taken by a file, nothing is changed. Otherwise the directory is emptied or created, then the superlattices are treated in order, one file each, until spglib fails on one or one has an atomic number outside the table; earlier files stay. With a working spglib a run finishes exactly when all elements of the input are in the table; otherwise the contents of an existing output directory are lost and nothing is written.",
  "all readable inputs, volumes below 2000 (the bound of C31), options and file systems", "the states left behind by interrupted runs are not enumerated by tests", f"{AP}/superlattice.py:App.run", f"{AP}/superlattice.py:App.__init__")

C("How the number of structures depends on the number of substituted atoms",
  "For the generators without duplicates that substitute atoms of one element, of one Wyckoff letter, or any atoms, by an element not yet on those N sites: the number of structures yielded for n substituted atoms is 1 for n = 0, 0 for n > N, the same for n and N - n, does not decrease from n to n + 1 while 2 n < N, does not increase after that, is at most choose(N, n), and times the number of symmetry permutations is at least choose(N, n).",
  "all cells, symmetry groups, elements and numbers n, collision-free hashes", "relates the results of runs with different arguments for groups and cells of any size; the increase up to one half is not visible from the code", f"{SO}:OccupyGenerator.gen_nodup_of_ele", f"{SO}:OccupyGenerator.gen_nodup_unitary", f"{SO}:OccupyGenerator.gen_nodup")

C("From a list of atoms to inequivalent crystals",
  "Take a lattice, a list of atoms in any order and any periodic images, any two more than 0.001 apart in some coordinate modulo 1, and operations that exactly permute the sites and form a group. Building GeneralCell, OccupyGenerator and calling gen_nodup_unitary, gen_nodup_of_ele or gen_nodup_trinary_alloy yields cells with the given lattice whose infinite crystals are exactly one from each symmetry class of the crystals with the asked numbers of atoms turned into the new elements; level k of all_speckle_gen_unitary and all_speckle_gen_of_ele does so for k turned atoms.",
  "all lists of atoms, operation lists, elements, numbers and levels, collision-free hashes", "quantifies over infinite crystals and over all ways of presenting the same atoms", f"{SC}:GeneralCell.__init__", f"{SO}:OccupyGenerator.gen_nodup_unitary", f"{SO}:OccupyGenerator.gen_nodup_of_ele", f"{SO}:OccupyGenerator.gen_nodup_trinary_alloy", f"{SO}:OccupyGenerator.all_speckle_gen_unitary", f"{SO}:OccupyGenerator.all_speckle_gen_of_ele")

C("Each derivative structure appears exactly once over all superlattices",
  "Take a parent cell whose operations form the symmetry group of its crystal, and a crystal that arises from it by turning some atoms, or some atoms of one element, into a new element (or into two new elements). Let the parent's lattice translations that keep this crystal form a lattice of index n. If, for every superlattice listed for volume n, the operations found for the enlarged cell are the parent's motions that keep the superlattice, then there is exactly one superlattice in the list, one number of replaced atoms and one entry of gen_nodup_unitary (gen_nodup_of_ele, gen_nodup_trinary_alloy) for its cell whose crystal is the given one up to a motion of the parent. The same holds for hnfs_from_n_2D and crystals whose translations include the third axis.",
  "all parents, symmetry groups, volumes below 2000, sublattices and decorations; sites of the enlarged cell distinct after rounding to three decimals, collision-free hashes", "the duplicates could hide in two different superlattices, compositions or list entries, of which no run compares all pairs", f"{GR}:SuperLatticeGenerator.hnfs_from_n", f"{GR}:SuperLatticeGenerator2D.hnfs_from_n", f"{GR}:SuperLatticeCell.__eq__", f"{GR}:SuperLatticeCell.to_general_cell", f"{SO}:OccupyGenerator.gen_nodup_unitary", f"{SO}:OccupyGenerator.gen_nodup_of_ele", f"{SO}:OccupyGenerator.gen_nodup_trinary_alloy")

C("Which arrangements a random walk returns, and how likely each is",
  "For n >= 2 the possible results of random_walk_arrange on Boron2dArrangeProblem(n) and FCC3dArrangeProblem(n) are exactly the sequences of n different grid positions that begin in the middle and in which every later position is adjacent to an earlier one. Each such sequence comes from exactly one sequence of random indices, the k-th of which is drawn from as many values as there are free positions adjacent to the first k positions; so at every step all free adjacent positions are equally likely.",
  "all n >= 2, all sequences of positions, all random indices, all set iteration orders", "neither the absence of an unreachable arrangement nor the equal weights can be seen from sampled walks", f"{AR}:random_walk_arrange", f"{AG}:Boron2dArrangeProblem", f"{AG}:FCC3dArrangeProblem", f"{DS}:RandomPopSet")

C("Rounded coordinates do not change the structures found",
  "Take a cell, and a second one with the same elements whose coordinates differ from it by at most e, together with symmetry operations that have the same rotations and translations off by at most d (up to lattice vectors). If no coordinate, and no coordinate of the image of a site under an operation, comes so close to a boundary of the rounding to three decimals that these errors matter, then both cells have their sites in the same order, the tables of site permutations are equal and every generator method lists structures with the same elements in the same order, or both raise the same exception. A cell written to a YAML or POSCAR file and read back is such a second cell with e = 0.0000505, so thirds and sixths survive files. Without the condition reading a file can change the order of the sites.",
  "all cells, errors, operations, generator methods and files (of known elements)", "files hold four to six decimals and spglib works with a tolerance, so in practice no coordinate is exact; tests use coordinates that are exact decimals", f"{SC}:GeneralCell._get_new_id_seq", f"{SC}:GeneralCell.get_symmetry_permutation", f"{SO}:OccupyGenerator", f"{IO}:GeneralIO.write_file", f"{VA}:VaspInput.from_string", f"{YA}:YamlInput.from_string")

C("What hash collisions do, and what a digest of fixed width can list",
  "gen_2nodup_gen keeps exactly the structures whose digest is not that of a symmetry image of a structure kept before, whatever the digest. A digest with B values therefore never lists more than B structures per generator or per level, and if the decorations outnumber B times the symmetry operations some class of decorations is lost; xxh64 is not enough for 40 of 80 sites without symmetry. On C60 the 32-bit digest cannot tell all decorations apart from 9 to 51 substituents, and from 12 to 48 substituents all_speckle_gen always loses structures.",
  "all digests, cells, operations, generator methods and levels", "a collision needs billions of structures; the loss is silent", f"{SO}:OccupyGenerator.gen_2nodup_gen", f"{SO}:numbers2id", f"{BU}:Structure.to_nodup_generator", f"{BU}:Structure.all_speckle_gen", f"{BU}:Structure._get_atom_seq_identifier", f"{SC}:GeneralCell.id")

C("Writers, file names and the file system",
  "GeneralIO.write_file touches nothing if no format is recognised (UnboundLocalError), if an element has no name (IndexError) or if the name is that of a directory (OSError); without a name it prints the text; otherwise the named file, new or not, holds exactly the text of the cell and every other file and directory is unchanged. from_file gives the rounded non-ghost sites back, and fails on a missing file. A writer object used later, after assignments and in-place writes to the arrays, never fails: the YAML writer shows the present numbers with the old comment, lattice and positions, the old YAML writer the old comment with the present arrays, and the POSCAR writer the old comment, elements and counts with the present lattice and the present sites labelled by the old elements; so an in-place change gives a POSCAR that reads back as a wrong structure. Without writes to the three arrays the text is that of the cell when the writer was made.",
  "all cells, histories of assignments and writes, names, formats and file systems", "tests write fresh cells to fresh names; writers that outlive a change of the arrays and names that already exist are not tried", f"{IO}:GeneralIO.write_file", f"{IO}:GeneralIO.from_file", f"{VA}:VaspOutput.write_file", f"{VA}:VaspOutput.get_string", f"{YA}:YamlOutput.write_file", f"{SIO}:YamlOutput.write", f"{SIO}:VaspPOSCAR.write")

C("Equality of grids and structures",
  "SitesGrid.__eq__ is False for None and otherwise holds exactly if both grids have the same dimensions and read the same atomic number at every position; CStru.__eq__ holds exactly if the lattice matrices are identical and the grids are equal. Both are equivalence relations, and for grids with entries they agree with equality of to_array and get_array. Writing a species of another atomic number into one of two equal grids with separate rows makes them unequal, and writing the old one back makes them equal again.",
  "all grids, structures, positions and species", "equality is tested on a few literals", f"{SC}:SitesGrid.__eq__", f"{SC}:CStru.__eq__", f"{SC}:SitesGrid.to_array", f"{SC}:CStru.get_array")

C("Sessions of single-structure commands",
  "atclear, perturb, supcell and pcell, run one after the other on a file system: a command changes at most one file, named after the stem of its input and the command, in the working directory; a command that is rejected, fails or prints changes nothing; no command overwrites its own input; files not named like an output of the session are untouched. What is written can be read by the next command, with lattice and atoms rounded. Commands none of which writes what another reads or writes end as each would alone, with the same files in every order. Inputs with the same name up to the first dot in different directories share one output: only the last one is left.",
  "all file systems, sequences of commands, arguments and answers of spglib", "tests run one command on one fresh input", f"ababe/cmdline/runatilib.py:atclear", f"ababe/cmdline/runatilib.py:perturb", f"ababe/cmdline/runatilib.py:supcell", f"ababe/cmdline/runatilib.py:pcell", f"{AP}/atomclarifier.py:App.run", f"{AP}/atomperturb.py:App.run", f"{IO}:GeneralIO.write_file")

C("What a command line means",
  "runaba suplat|ocumaker|ocubiter|ocutenter|ocumakert and runati atclear|perturb|supcell|pcell call their function with the documented defaults changed by the settings of the line from left to right, in any spelling (long name, long name with =, short name, short name with attached value, joined switches) and with the input file anywhere among them or after --. Settings of different options may change places; of two settings of one option the later counts, of several distance restrictions only the first has an effect. An unknown option or command, an option without all its values, a number of input files other than one, an input that does not exist, a value of the wrong type and a missing required option are rejected, and --help, --version and the empty line answered, without touching any file; a missing pair of species or numbers, a missing scale, or a directory given as the input raises a stated exception without writing.",
  "all command lines, file systems and contents", "tests call the applications, never the command line; a line has unboundedly many spellings and orders", f"ababe/cmdline/runabalib.py:suplat", f"ababe/cmdline/runabalib.py:ocumaker", f"ababe/cmdline/runabalib.py:ocubiter", f"ababe/cmdline/runabalib.py:ocutenter", f"ababe/cmdline/runabalib.py:ocumakert", f"ababe/cmdline/runatilib.py:atclear", f"ababe/cmdline/runatilib.py:perturb", f"ababe/cmdline/runatilib.py:supcell", f"ababe/cmdline/runatilib.py:pcell")

C("Supercells by any integer matrix",
  "supercell(M) for a matrix M of non-negative integers, triangular or not and of either handedness, with index |det M| below 100000: if the product of the diagonal of M is |det M| the result is the same infinite crystal with |det M| times the sites and det M times the volume and no repeated site. Below |det M| the call raises IndexError; above it the call succeeds, all sites are right, but the species are those of the list with each number repeated as often as the product of the diagonal, cut off at the number of sites: right for one species, and wrong (too many atoms of the first stored species) if that species occurs at one atom only. A singular M raises LinAlgError. With two negative factors, supercell(diag(-a,-b,k)) succeeds with k instead of a·b·k copies in a·b·k times the volume.",
  "all cells, all such matrices", "tests use one diagonal matrix; the faults need matrices outside the tested shape", f"ababe/stru/scaffold.py:GeneralCell.supercell", f"ababe/stru/scaffold.py:GeneralCell.get_frac_from_mat")

C("What a session of both programs can do to existing files",
  "Run any number of command lines of runaba and runati one after the other, right or wrong, finished or aborted. A file that existed before keeps its content, and the directories leading to it stay, unless (1) a part of its path begins with SUPLAT_ and some line was a suplat, or (2) it is named in the working directory with an ending of a runati output and some line was a runati. In particular an input in the working directory without such a name survives every session, and the occupation commands (ocumaker, ocubiter, ocutenter, ocumakert) never change an existing file. After a suplat that finished, its output directory holds only files of this line's volume and output mode: results of an earlier run with the same comment and another volume are gone.",
  "all sessions, file systems, inputs, options and random suffixes (without slash)", "tests run each command once in a fresh directory and look only at the new files", "setup.py", f"ababe/cmdline/runabalib.py:exec_from_cmdline", f"ababe/cmdline/runatilib.py:exec_from_cmdline", f"ababe/cmdline/apps/superlattice.py:App.run", f"ababe/cmdline/apps/occupybiter.py:App.run", f"ababe/cmdline/apps/occupymaker.py:App.run")

C("suplat followed by ocubiter finds every derivative structure",
  "Take any crystal on the sites of the input that differs from it by replacing atoms of one element by one species and repeats along a sublattice of index v. A finished run of suplat for volume v leaves a file such that a finished run of ocubiter on that file, for the right number of replaced atoms and without filters, leaves a file with that crystal: rounded to the decimals of the files, up to an operation of the parent, the map by which spglib standardises the superlattice, and an operation of the standardised cell.",
  "all inputs, volumes below 2000, elements, species, sublattices, periodic replacements, output modes and starting file systems, collision-free hashes", "tests never run one program on the output of another, and no test knows the full set of derivative structures", f"ababe/cmdline/apps/superlattice.py:App.run", f"ababe/cmdline/apps/occupybiter.py:App.run", f"ababe/stru/sogen.py:OccupyGenerator.gen_nodup_of_ele", f"ababe/stru/scaffold.py:GeneralCell.get_shaped_cell", f"ababe/io/vasp.py:VaspInput.from_string", f"ababe/io/yaml.py:YamlInput.from_string")

C("The grid generator and the cell generator find the same structures",
  "For a grid of at most 990 points in each direction and operations that permute its points, gen_nodup_cstru(lattice, sea, size, speckle, num) and OccupyGenerator(CStru(lattice, sea grid).get_gcell()).gen_nodup_unitary(num, speckle) yield the same structures in the same order: the n-th cell is get_gcell() of the n-th grid. The number yielded, times the number of permutations of grid points brought about by the operations, is the sum over these of the number of decorations they fix. It is 1 for no speckle, 0 for more speckles than points, the same for n and N - n, rises up to N/2 and falls after, and is unchanged when sea and speckles are exchanged with num replaced by N - num.",
  "all lattices, sizes up to 990, species, numbers and operation lists, collision-free hashes", "the two generators are separate implementations that tests compare on two sizes at most; the counts are infinitely many", f"ababe/stru/sogen.py:gen_nodup_cstru", f"ababe/stru/sogen.py:OccupyGenerator.gen_nodup_unitary", f"ababe/stru/scaffold.py:CStru.get_gcell", f"ababe/stru/scaffold.py:CStru.gen_speckle", f"ababe/stru/sogen.py:get_permutation_cell")

C("Alloys of several species by repeated substitution",
  "Replace atoms of one element by several new species one after another: gen_nodup_of_ele(ele, n, sp) on the cell, then the next species with a new OccupyGenerator for every cell obtained, and so on. Taken together the cells obtained are the alloys of that composition up to the symmetry of the starting cell: each has the starting lattice and sites, keeps the other atoms and holds every species in its number; every such alloy is equivalent to one of them; no two are equivalent, even if they come from different intermediate cells. The number is the same for every order of the species, and for a cell of one element and two species it is the number that gen_nodup_trinary_alloy yields.",
  "all cells, lists of new species with numbers, and symmetry finders that return for each decoration exactly the operations keeping it; collision-free hashes", "the number of alloys of several species explodes; no test goes beyond one species at a time, and a duplicate across intermediate cells would need a full comparison", f"ababe/stru/sogen.py:OccupyGenerator.gen_nodup_of_ele", f"ababe/stru/sogen.py:OccupyGenerator.gen_nodup_trinary_alloy", f"ababe/stru/sogen.py:OccupyGenerator.__init__", f"ababe/stru/scaffold.py:GeneralCell.get_symmetry_permutation")

C("A cell is determined by its lattice and its crystal; supercells of supercells",
  "Two GeneralCells with the same lattice that describe the same infinite crystal without repeating a site have the same numbers in the same order, hence the same id, and site by site the same position up to a lattice vector. Consequently supercell(A) followed by supercell(B) gives the cell of supercell(B·A), enlarging by factors in either order or at once by their products gives the same cell, and supercell with the unit matrix gives the cell back.",
  "all cells with a non-degenerate lattice and distinct reduced coordinates, all scale matrices for which supercell is right (C113: determinant below 100000)", "infinitely many cells and pairs of matrices; equality of the stored order after two enlargements cannot be covered by samples", f"ababe/stru/scaffold.py:GeneralCell.__init__", f"ababe/stru/scaffold.py:GeneralCell.id", f"ababe/stru/scaffold.py:GeneralCell.supercell")

C("Superlattices of superlattices",
  "List the superlattices of volume m of a cell with hnfs_from_n_dups, turn them into cells with to_general_cell and list the superlattices of volume n of these. Every superlattice cell listed directly for volume m·n is reached: one of the two-step cells has the same lattice of translations, the same crystal and the same number of atoms. Every two-step cell is, up to the choice of basis vectors, one of the cells listed for m·n, and the lattice of exactly one of them. If m and n have no common factor the two steps are determined by the result.",
  "all cells, all volumes with product below 100000, all set iteration orders", "a statement about all sublattices of all indices; tests only list volumes up to a handful and never twice in a row", f"ababe/stru/grid.py:SuperLatticeGenerator.hnfs_from_n_dups", f"ababe/stru/grid.py:SuperLatticeCell.to_general_cell")

C("The search tree is a part of the game tree",
  "In a tree search that follows a game (every playout starts from the present state, and update_with_move is called with each move played), the children of every expanded position are exactly the actions the policy offers at the state of that position, with the prior it lists first; the positions in the tree are exactly the present one and those reached by an offered move from a position that some playout left by a move; every line in the tree is a legal line of play. get_move returns an offered move if there is one and raises ValueError if there is none. Each playout makes at most playout_depth times the number of offered actions new nodes, and each step forward at most one. If the state moves on without update_with_move, get_move may return a move that is not offered.",
  "all games, policies, histories of playouts and moves, depths and numbers of playouts; on Python 2 (on Python 3 get_move raises, C57)", "statements about every history of a search", f"ababe/mlearn/mcts.py:MCTS._playout", f"ababe/mlearn/mcts.py:MCTS.get_move", f"ababe/mlearn/mcts.py:MCTS.update_with_move", f"ababe/mlearn/mcts.py:TreeNode.expand")

C("Elements are only labels",
  "Rename the elements of a cell by a one-to-one map and the species to be put in likewise, with the same symmetry operations. Then OccupyGenerator builds the same site permutations, and every generator method (gen_dup*, gen_nodup*, gen_nodup_trinary_alloy, all_speckle_gen*) lists exactly the renamed structures in the same order, or raises the same exception. In particular, of two species absent from the cell it makes no difference which one is put in.",
  "all cells, renamings, species, numbers and hashes without collisions on the decorations concerned", "all cells and all renamings; tests always use the same few elements", f"ababe/stru/sogen.py:OccupyGenerator.gen_nodup_unitary", f"ababe/stru/sogen.py:OccupyGenerator.gen_nodup_of_ele", f"ababe/stru/sogen.py:OccupyGenerator.gen_nodup", f"ababe/stru/sogen.py:OccupyGenerator.gen_nodup_trinary_alloy", f"ababe/stru/sogen.py:OccupyGenerator.all_speckle_gen_unitary", f"ababe/stru/sogen.py:OccupyGenerator.all_speckle_gen_of_ele")

C("The value of a search node in Python's own numbers",
  "A tree node updated n times with floats of absolute value at most B (or with any numbers on Python 3) holds a float within B(n+1)/2^50 of their mean; its score is the mean plus the exploration bonus up to rounding, and select picks a visited child whose true score is best up to twice that bound. On Python 2, the only version with dict.iteritems, integer leaf values are averaged with floor division: for values between -M and M the node's value never goes up after 2M visits and goes down by one at each value below it, so two losses make it -1 for ever whatever follows. lmbda=1 given as an integer makes every leaf value an integer; a float lmbda never does. With a float lmbda between 0 and 1 the leaf value is (1-lmbda)v + lmbda z up to B/2^50.",
  "all sequences of updates (up to 2^49 of them), all numbers of the machine", "error bounds over all sequences of updates; tests run a few updates and round the outcome", f"ababe/mlearn/mcts.py:TreeNode.update", f"ababe/mlearn/mcts.py:TreeNode.get_value", f"ababe/mlearn/mcts.py:TreeNode.select", f"ababe/mlearn/mcts.py:MCTS._playout")

C("Sphere query and atom removal in double precision",
  "In IEEE double precision get_points_incell_insphere returns the same sites, and AtomRemoveClarifier and VerboseAtomRemoveClarifier leave the same cell, as with exact arithmetic, for cells of up to 100 A per entry with fractional coordinates of at most 1, unless the squared distance of an image of a site from a center lies within 1e-6 of the square of the radius. Without that proviso it fails: an atom at the double 1/3 of a cell of 3 A is closer than 1 A to the origin, but a query with this radius misses it.",
  "all cells of bounded size, centers, radii, elements, and all square roots with an error of 1e-14", "rounding errors over all real inputs; tests use round numbers far from the boundary", f"ababe/stru/scaffold.py:ModifiedCell.get_points_incell_insphere", f"ababe/stru/scaffold.py:ModifiedCell.in_euclidean_discance", f"ababe/stru/clarifier.py:AtomRemoveClarifier.clarify", f"ababe/stru/clarifier.py:VerboseAtomRemoveClarifier.clarify")

C("When the symmetry finder misses operations or reports false ones",
  "Compare a generator whose symmetry finder reports only a subgroup of the operations with one that gets all of them. gen_nodup_unitary, gen_nodup_of_ele, gen_nodup, gen_nodup_trinary_alloy and every level of all_speckle_gen_unitary then still list every structure up to the full symmetry, none is lost; no structure is listed more often than (site permutations of all operations) / (site permutations of those found); the list is at least as long as the right one and at most this factor longer; and it has the right length when the missing operations bring about no further permutation. Conversely, with false operations added, no two listed structures are equivalent, but structures are lost: with the exchange of the axes of a rectangle of 3 by 4 A reported, the pair along one of its sides is missing.",
  "all cells, both operation lists (groups on the sites), numbers of atoms, elements, Wyckoff letters, and hashes injective on the structures concerned", "would need wrong answers of spglib (its tolerance is passed by the user) for every crystal", f"ababe/stru/sogen.py:OccupyGenerator.gen_nodup_unitary", f"ababe/stru/sogen.py:OccupyGenerator.gen_nodup_of_ele", f"ababe/stru/sogen.py:OccupyGenerator.gen_nodup", f"ababe/stru/sogen.py:OccupyGenerator.gen_nodup_trinary_alloy", f"ababe/stru/sogen.py:OccupyGenerator.all_speckle_gen_unitary", f"ababe/stru/scaffold.py:GeneralCell.get_symmetry_permutation")

C("Removing duplicates keeps the first of every class, and the laws that follow",
  "gen_2nodup_gen keeps exactly those structures of its input that none of the structures before them is equivalent to, whether that one was kept or not. Hence: the result depends neither on the hash nor on the order or multiplicity of the operations, only on which structures they identify; filtering twice is the same as filtering once; for two inputs one after the other, of the second are kept those that it would keep alone and that have no equivalent in the first, and the first may be filtered before; a test that treats equivalent structures alike, such as the primitivity test and the distance restriction on the cells of C91, may be made before or after with the same list as result; replacing input structures by equivalent ones replaces output structures by equivalent ones; and another order of the input gives as many structures of the same classes.",
  "all cells, operations, hashes without collisions on the images, and all lists of decorations, not only those made by the generators", "properties of all input lists and all groups; tests filter one list", f"ababe/stru/sogen.py:OccupyGenerator.gen_2nodup_gen", f"ababe/stru/sogen.py:OccupyGenerator._update_isoset")

C("A consumer that changes the structures it receives",
  "gen_2nodup_gen reads the numbers of a yielded structure only when the next one is asked for, so what the consumer does to the structure in between matters. A consumer that only replaces structures by equivalent ones (the same one included) receives the same structures as one that merely looks, for every hash, and with all_speckle_gen* consumed level by level it receives one structure of every class of every level. For any consumer: a structure is received exactly if what the consumer made of the structures received before is not equivalent to it. Hence a consumer that writes a foreign element (for instance a vacancy) into every structure receives all duplicates, one that changes a structure into one of another class loses that class, and one that shortens the numbers makes the next call raise IndexError.",
  "all cells, operations, consumers (functions of everything received before), lists of structures, hashes", "the consumer is arbitrary user code running between two steps of the generator", f"ababe/stru/sogen.py:OccupyGenerator.gen_2nodup_gen", f"ababe/stru/sogen.py:OccupyGenerator.all_speckle_gen_unitary", f"ababe/stru/sogen.py:OccupyGenerator.all_speckle_gen", f"ababe/stru/sogen.py:OccupyGenerator.all_speckle_gen_of_ele", f"ababe/stru/scaffold.py:GeneralCell.numbers")

C("The divisors of the volume with a floating-point square root",
  "hnfs_from_n_dups looks for divisors up to int(n**0.5), computed in double precision. Divisors are lost exactly if a divisor up to the true square root exceeds that bound; a bound that is too large does no harm. If the power has an error below one unit in the last place, the bound is the exact integer square root for every volume below 2^52 and not below it up to 2^53, so the superlattices of both generators are those of the exact computation in the same order. If the power is rounded to nearest, all divisors are found for every volume below 2^106, although the volume itself is rounded; every statement about the superlattices that holds for all orders of the divisor sets therefore holds for the program. An error below one unit is not enough for larger volumes: at (2^27+1)^2 the divisor 2^27+1 may be missed.",
  "all volumes below the bound and all square root routines of the stated quality", "the library's power function and 2^52 volumes", f"ababe/stru/grid.py:SuperLatticeGenerator.hnfs_from_n_dups", f"ababe/stru/grid.py:SuperLatticeGenerator2D.hnfs_from_n_dups", f"ababe/stru/grid.py:SuperLatticeGenerator.hnfs_from_n", f"ababe/stru/grid.py:SuperLatticeGenerator2D.hnfs_from_n")

C("Ids depend on the integer type of the atomic numbers",
  "The id of a structure hashes the bytes of its array. For arrays of one integer type (at least one byte) whose numbers fit it the bytes determine the numbers, so ids clash only if the hash collides on different byte strings; every atomic number of the table fits every integer type. On structures of one type gen_2nodup_gen works as in the model with lists. Fed with structures of several types (say from a file and from spglib) it filters every type for itself, so a structure given again in another type is kept again, although is_equivalent finds the two equal. The same cell in two types has two ids, and a cell has the id of the cell of half the integer width with a vacancy after every atom, whatever the hash.",
  "all cells, types, generators and inputs", "infinitely many arrays, types and hashes", f"ababe/stru/scaffold.py:GeneralCell.id", f"ababe/stru/sogen.py:numbers2id", f"ababe/stru/sogen.py:OccupyGenerator.gen_2nodup_gen", f"ababe/stru/sogen.py:OccupyGenerator._update_isoset")

C("How likely an application run loses structures",
  "ocumaker, ocubiter and suplat name every file with four characters drawn from A-Z and 0-9 and overwrite existing files. A finished run of ocumaker or ocubiter keeps every passing structure exactly if the draws differ for any two structures whose comments, as written, are the same, and leaves as many files as there are different pairs of comment and draw; the number of complete draws is the product over the comments of the number of ways to draw without repetition. All structures of ocubiter have the same comment, so without refinement its run is complete exactly if no two draws coincide; the same holds for suplat. For m structures of one comment at most m(m-1)/2 in 36^4 of the draws lose a structure; more than half of the draws lose one exactly if m is at least 1527; and over all draws the files left number 36^4((36^4)^m - (36^4-1)^m) in total.",
  "all finished runs, numbers of structures and draws", "36^4 draws for every one of the structures", f"ababe/cmdline/apps/occupybiter.py:App.run", f"ababe/cmdline/apps/occupymaker.py:App.run", f"ababe/cmdline/apps/superlattice.py:App.run", f"ababe/stru/scaffold.py:GeneralCell.comment")

C("An application run in double precision",
  "Run ocubiter or ocumaker with IEEE doubles throughout: the input read, rounded and sorted, the site permutations, the structures, the distance restriction with its bound given as a decimal number, refinement, and writing. The run ends in the same way as the run with exact numbers (normally or with the same exception), creates the same directory and the same files in the same order, the POSCAR texts are identical character by character, and every number in a YAML file is the double nearest to the exact one. This holds for input files with scale factor 1 whose numbers are not close calls for the roundings made, if spglib answers alike for the cell with exact numbers and the one with doubles.",
  "all input files of the stated kind, options, file systems, hashes, and square roots with an error of 1e-14", "every decision of a run would have to be repeated in exact arithmetic", f"ababe/cmdline/apps/occupybiter.py:App.run", f"ababe/cmdline/apps/occupymaker.py:App.run", f"ababe/io/io.py:GeneralIO.write_file", f"ababe/io/io.py:GeneralIO.from_file", f"ababe/stru/sogen.py:OccupyGenerator.gen_nodup_of_ele", f"ababe/stru/sogen.py:OccupyGenerator.all_speckle_gen_of_ele", f"ababe/stru/restriction.py:MinDistanceRestriction.is_satisfied")

C("Grid structures in double precision, and the loss at 80 and 101 layers",
  "Positions of a grid structure, their images under symmetry operations, the two roundings and the remainder modulo 1, all computed in IEEE double precision. For sizes up to 990 get_cell returns the lattice vectors rounded entry by entry, coordinates off by at most 1e-14 and the same numbers. If every size d of the grid is at most 990, not divisible by 80 and less than 100 gcd(d, 2000), which includes all sizes up to 100 except 80, get_permutation_cell returns the permutations of exact arithmetic and gen_nodup_cstru yields the same structures in the same order, hence one grid per symmetry class. is_stru_equal, which rounds to ten decimals first, gives the same answer for all sizes up to 990 not divisible by 80. The size 80 must be excluded: 1/80 = 0.0125 lies halfway between two numbers with three decimals and is rounded differently after wrapping around. On the 80 x 2 x 1 grid with the identity and a mirror operation that fixes every site, gen_nodup_cstru with one speckle loses at least one structure in each of ten layers, while exact arithmetic yields every one. On the 101 x 2 x 1 grid it loses one with the speckle in layer 96, as 96/101 = 0.950495... is rounded to 0.9505 first, and that lies halfway again. On the 80 x 2 x 1 grid is_stru_equal reports grids as equal that differ by the place of their speckle within one of the ten layers; exact arithmetic tells them apart.",
  "all lattices, sizes, species and numbers of speckles; all operations that map the grid to itself, with rotation entries up to 10, translations up to 100, and translations off by at most 1e-9 (1e-11 for is_stru_equal)", "every size has its own rounding errors, and operations are not under the control of a test", f"{SO}:gen_nodup_cstru", f"{SO}:get_permutation_cell", f"{SO}:is_stru_equal", f"{SC}:CStru.get_cell")

C("Which space-group numbers the restriction can tell apart",
  "SpaceGroupRestriction takes the first run of digits in a name such as 'P-62m (189)' for the space-group number. Over the 230 space-group types: SpaceGroupRestriction([n]) accepts exactly the structures of type n for 30 types only (7 to 9, 47 to 61, 63 to 74); structures of type k are judged rightly for every list exactly if k is 1, 6 to 9 or 47 to 74; [n] accepts any structure at all for 47 numbers n only, so that for example [225] and [194] reject everything; and a list of types accepts exactly the types in it if and only if it contains all or none of the 164 types connected with 1, all or none of the 25 connected with 6, all or none of 62, 189 and 190, and none of 89, 97, 149, 150, 177, 207, 209 and 211.",
  "all lists of integers and all 230 space-group types", "2^230 lists of types", f"{RE}:SpaceGroupRestriction.is_satisfied", f"{SC}:GeneralCell.get_spacegroup")

C("Comparing grids through the text numpy prints",
  "is_stru_equal compares str(array) of atomic numbers. numpy's text (padding to a common width, line breaks after 75 characters, '...' beyond 1000 numbers) determines the numbers of an array up to 1000 entries; for longer arrays two texts are the same exactly if the first three and the last three numbers are, whatever the length. Hence for grids of equal size with up to 1000 sites is_stru_equal is True exactly if some operation carries the second grid onto the first, and for larger grids exactly if some operation carries it onto a grid that agrees with the first in the first three and the last three sites.",
  "all integer arrays; all grids up to 990 layers per direction, all species of the table, and all operation lists that permute the grid points", "infinitely many arrays and grids, and the failure begins at 1001 sites", f"{SO}:is_stru_equal", f"{SO}:get_permutation_cell")

C("The ternary applications in double precision",
  "Run ocutenter or ocumakert with IEEE doubles: cells built and sorted, site permutations, ternary structures, the distance restriction, refinement and writing. The run ends in the same way as the run with exact numbers (normally or with the same exception), uses the same temporary names in the same order, and leaves the same directory and files; POSCAR texts are identical character by character and every number in a YAML file is the double nearest to the exact one. This holds for settings with zoom 1 and four decimals, none of them a close call for the roundings made, if spglib answers alike for the cell with exact numbers and the one with doubles, and if refined structures are written as POSCAR.",
  "all settings, options, numbers of atoms and file systems within these conditions", "infinitely many settings, and the effect of rounding cannot be seen without the exact run to compare with", "ababe/cmdline/apps/occupytenter.py:App.run", "ababe/cmdline/apps/occupymakert.py:App.run", f"{SO}:OccupyGenerator.gen_nodup_trinary_alloy")

if __name__ == "__main__":
    with open(os.path.join(os.path.dirname(__file__), "..", "properties.jsonl"), "w") as f:
        for p in P:
            f.write(json.dumps(p) + "\n")
    print(len(P))
