#!/usr/bin/env python3
"""Writes /verif/MANIFEST.json from the list below."""
import json, os
M = []
def P(pid, status, theorems, note=""):
    M.append(dict(property=pid, status=status, theorems=theorems.split(), note=note))

P("C01", "proved", "C01_lookup_roundtrip C01_number_roundtrip C01_number_domain C01_symbol_domain", "pt.json has no entries 57-71, so La and the lanthanides raise.")
P("C02", "proved", "C02_equality")
P("C09", "proved", "C09_sites_rearranged C09_constructor_domain", "Extra numbers beyond the number of positions are silently dropped.")
P("C10", "proved", "C10_stored_order")
P("C11", "proved", "C11_identity_canonical")
P("C12", "proved", "C12_rebuild_identity")
P("C13", "proved", "C13_permutation_rows C13_permutation_rows_exact", "spglib's operations are a parameter with the contract Spec.SymContract (permute the sites, closed under composition and inverse).")
P("C14", "proved", "C14_is_equivalent_iff C14_is_equivalent_crystal C14_equivalence_relation")
P("C15", "proved", "C15_unitary_exact")
P("C16", "proved", "C16_of_ele_exact")
P("C17", "proved", "C17_wyckoff_exact", "The identity comparison `w is wy` is modelled as equality (single-character strings are interned by CPython).")
P("C18", "proved", "C18_trinary_exact")
P("C19", "proved", "C19_no_equivalent_pair C19_no_equivalent_pair_group")
P("C20", "proved", "C20_no_class_lost", "Hypothesis: no collision of the 64-bit hash on the images that occur.")
P("C21", "proved", "C21_nodup_unitary C21_nodup_of_ele C21_nodup_wyckoff C21_nodup_trinary", "Hypothesis: no hash collision on the images that occur.")
P("C22", "proved", "C22_add_one_unitary C22_add_one_wyckoff C22_add_one_of_ele", "That nothing is missed assumes no hash collision among the candidates; what collisions do is C108.")
P("C23", "proved", "C23_levels_unitary C23_levels_wyckoff C23_levels_of_ele", "Hypothesis: no hash collision on the images that occur; for the Wyckoff variant, letters are constant on orbits (spglib contract).")
P("C24", "proved", "C24_direct_incremental_agree")
P("C26", "proved", "C26_level_counts")

P("C27", "proved", "C27_factors")
P("C28", "proved", "C28_hnf_exact", "Holds for every iteration order of the Python sets involved.")
P("C29", "proved", "C29_every_superlattice_once C29_count")
P("C30", "partial", "C30_equality_partial C30_no_false_negative_partial C30_false_at_2000 C30_false_from_2000", "The iff is proved for n < 2000; for every n equal sublattices are recognised; at every n >= 2000 the rounding tolerance makes unequal sublattices compare equal (C30_false_from_2000), so the bound is sharp.")
P("C31", "proved", "C31_transversal C31_transversal_2d C31_false_from_2000 C31_false_from_2000_2d", "n < 2000, the bound of C30; from 2000 on the list is incomplete for every n (C31_false_from_2000), so the bound is sharp.")
P("C32", "proved", "C32_interior_points C32_false_at_200000", "det < 100000, the tolerance bound in the statement; C32_false_at_200000 shows that a bound is needed.")
P("C33", "proved", "C33_superlattice_cell C33_enumerated", "det < 100000, the bound of C32.")
P("C34", "proved", "C34_supercell", "det < 100000, the bound of C32.")
P("C35", "proved", "C35_two_dimensional")

P("C25", "proved", "C25_lazy_schedule C25_schedule_unitary C25_schedule_wyckoff C25_schedule_of_ele", "Every finite schedule of next() calls over the coroutine/tee machine.")
P("C36", "proved", "C36_min_distance")
P("C37", "partial", "C37_wide_cells_partial C37_orthogonal_partial C37_false_skew C37_false_unwrapped", "False in general (skewed cells, unreduced coordinates): two counterexamples. Proved for reduced coordinates when the cell is wide compared to d, and for every orthogonal cell.")
P("C38", "partial", "C38_digit_free_partial C38_first_number C38_false_screw_axis C38_no_number", "False for symbols containing a digit: the first run of digits decides, e.g. 'P2_1 (4)' counts as 2. Proved for digit-free symbols.")

P("C39", "proved", "C39_sphere_query")
P("C40", "proved", "C40_center_removal C40_idempotent_order_free")
P("C41", "proved", "C41_element_removal")
P("C42", "proved", "C42_plain_list", "Integer indices (slices and the MutableSequence mixin methods are not modelled).")
P("C43", "proved", "C43_round_trip C43_index_error")
P("C44", "proved", "C44_translate C44_perturb", "perturb: np.linalg.norm is a parameter; the displacement has length |d| when it is exact.")
P("C45", "proved", "C45_copy_equal C45_changes_to_copy_invisible C45_changes_elsewhere_invisible_in_copy C45_shared_site_visible")

P("C46", "proved", "C46_round_trip C46_ghosts_only", "Character level; C46_ghosts_only: a cell without real atoms is never readable.")
P("C47", "proved", "C47_internal_consistency")
P("C48", "proved", "C48_comment")
P("C49", "proved", "C49_round_trip C49_read_cell C49_scale C49_old_writer", "The YAML text syntax (ruamel/pyyaml) is not modelled; the mapping is.")
P("C50", "proved", "C50_scale_factor C50_read", "Cube root over the reals.")
P("C51", "partial", "C51_dispatch C51_explicit_partial C51_explicit_false C51_write_read", "The dispatch rule is proved; 'an explicit format is honoured' is false for fmt='vasp' with a name containing .yaml (C51_explicit_false).")

P("C52", "proved", "C52_is_a_set C52_equality")
P("C53", "proved", "C53_random_pop", "The random index is an arbitrary oracle value in range.")
P("C54", "proved", "C54_path C54_ends")
P("C55", "proved", "C55_mean", "Exact rational arithmetic with true division (Python 3 '/').")
P("C56", "proved", "C56_children C56_root C56_depth C56_fresh", "On Python 2 semantics of dict.iteritems: on Python 3, which setup.py declares, select and get_move raise AttributeError (C57_python3).")
P("C57", "proved", "C57_expand C57_get_move C57_python3", "C57_python3: on Python 3 get_move always raises AttributeError. On Python 2 the children come in any order (MGame.iter).")
P("C58", "proved", "C58_reuse C58_frame C58_above")
P("C59", "proved", "C59_group")
P("C60", "partial", "C60_relabelled_partial C60_false", "False for the stored site order: every row but the identity breaks bonds (C60_false). After one relabelling of the sites all rows preserve squared distances within 0.0008 and the bond relation (C60_relabelled_partial).")
P("C61", "proved", "C61_never_equivalent C61_representatives C61_to_gen", "xxhash is a parameter; the second theorem assumes no collision within each level. With 32 bits that is possible up to 8 substituents only (C108).")
P("C68", "partial", "C68_same_size_partial C68_copy_equal C68_raises C68_general_false", "Proved for equal sizes. The last clause is false: a one-site cell equals an n-site cell with the same repeated entries (numpy broadcasting, C68_general_false) and other size pairs raise ValueError (C68_raises).")
P("C69", "proved", "C69_set_element C69_set_position")
P("C70", "proved", "C70_reverse C70_index C70_remove C70_contains_count C70_reversed C70_clear")
P("C71", "proved", "C71_greedy", "For every order in which dict.iteritems may give the children.")
P("C72", "proved", "C72_mixture C72_bounded")
P("C73", "proved", "C73_extend_self")
P("C74", "proved", "C74_gen_speckle C74_agreement C74_help_add_one", "Agreement assumes no hash collision within each level (C108: impossible for 32 bits from 9 to 51 substituents).")

P("C03","proved","C03_write C03_sea C03_history","Rows live on an explicit heap; every grid made from a fresh nested list has separate rows.")
P("C04","partial","C04_equal_partial C04_false","The copy equals the original, but the independence part is false: deepCopy shares all rows, C04_false shows every write through one is visible through the other.")
P("C05","proved","C05_from_array C05_to_array C05_no_entries","Arrays without entries are rejected by np.vectorize (C05_no_entries).")
P("C06","proved","C06_gen_speckle","")
P("C07","proved","C07_get_cell","Fractions are exact rationals.")
P("C08","partial","C08_neighbours_partial C08_symmetric C08_few C08_transposed","Proved when at least two neighbours exist. False otherwise (C08_few: TypeError, ValueError, or a set of coordinates) and for grids that are not cubic (C08_transposed: coordinates are read in a different order).")
P("C62","proved","C62_gen_nodup C62_exact atomSeqId_inj C62_shared_key C62_false_991 C62_false_large","Dimensions up to 990. The bound is sharp: when two layers share their 3-decimal sort key, equivalent structures are yielded on a chain (C62_shared_key); this happens with 991 layers and with any number above 1000. spglib contract as for C23: its operations permute the sites and form a group.")
P("C63","partial","C63_equal_partial C63_false","Proved up to 1000 sites for grids of equal size. Beyond 1000 sites str() abbreviates the array and the claim is false (C63_false); C133 says exactly what holds there, and proves of a model of numpy's text what C63 assumes about it.")
P("C64","proved","C64_disjunct C64_any_lattice C64_unknown C64_lattices C64_skewed","Distances compared through exact squares; sqrt(3)/2 is a rational whose square is within 1e-9 of 3/4.")
P("C65","proved","C65_names_ocutenter C65_names_ocumakert C65_pairs C65_ocumakert C65_composition","C65_ocumakert: a finished run goes through all these compositions and writes every passing structure of each.")
P("C66","partial","C66_own_files_partial C66_lost C66_false C66_suplat C66_suplat_own_files_partial C66_suplat_crowded C66_ocutenter","False in general: the 4 random characters of the file names can coincide and the later structure overwrites the earlier (C66_false, C66_lost; for suplat unavoidable beyond 36^4 superlattices, C66_suplat_crowded). Proved when the names are distinct; the ternary applications use fresh temporary names and need no such hypothesis (C66_ocutenter, C65_ocumakert).")
P("C67","proved","C67_condition C67_absent C67_ocubiter C67_ocumaker C66_ocutenter","For runs that finish. A restriction on an element that a structure lacks makes the run fail with ValueError (C67_absent). spglib and the random generator are parameters.")
P("C75","proved","C75_ocubiter C75_ocumaker","spglib contract and no hash collisions as for C21 and C23.")
P("C76","proved","C76_format")
P("C77","proved","C77_existing C77_existing_ternary C77_keeps C77_keeps_ternary")
P("C78","proved","C78_refined C78_shaped","spglib's standardisation is a parameter; its answer for the labelled cell is the hypothesis of C78_shaped.")
P("C79","proved","C79_stem C79_atclear C79_perturb C79_supcell C79_pcell","Elements of the input cell are known ones; perturb assumes a non-singular lattice and enough non-zero random vectors; exact arithmetic.")
P("C80","proved","C80_neighbours C80_arrays C80_entries C80_equal","Distances compared through exact squares; from_array fails because Specie has no to_sp.")
P("C81","proved","C81_boron C81_boron_small C81_fcc C81_fcc_small","Random numbers and set iteration order are parameters; the list of random numbers must be long enough.")
P("C82","proved","C82_unitary C82_of_ele C82_wyckoff C82_trinary","The operations must carry atoms onto atoms of the same element (for gen_nodup also the same Wyckoff letter), which spglib's do.")
P("C83","proved","C83_numbers","No hash collisions inside one level; the 32-bit digest of the code allows this up to k = 8 only, and from k = 12 to 48 it loses structures (C108), so for those k the number is that of an ideal digest. The isomer numbers themselves are evaluated from Spec.icosahedral in examples beside the theorem.")
P("C84","proved","C84_count C84_subgroups C84_count_2d","C84_subgroups is the statement about subgroups of Z^3 obtained from the generator.")
P("C85","proved","C85_random_fill C85_random_fill_all C85_get_gcell C85_get_gcell_order","The random array is a parameter.")
P("C86","proved","C86_name","Byte order of x86-64.")
P("C87","proved","C87_nearest C87_images C87_sort C87_cell C87_cell_given C87_symmetry C87_generator C87_fragile","Binary64 round-to-nearest-even, unlimited exponent range upwards; matmul by sums from the left (C87_images allows any other computation of the images within 1e-10).")
P("C88","proved","C88_equality C88_interior C88_supercell","LAPACK inverses and matrix products enter as computed values with a stated error bound.")
P("C89","proved","C89_binary C89_ternary C89_only_derivatives","Operations are those of spglib (contract: exact, element preserving); the sites of the enlarged cell must differ after rounding to three decimals and hashes must not collide.")
P("C90","proved","C90_record C90_suplat_record C90_ternary_record C90_ocubiter C90_ocumaker C90_ocutenter C90_ocumakert","A structure of ghosts only cannot be read back from a POSCAR (C47), so at least one real atom is required. Name collisions of the binary applications are the subject of C66.")
P("C91","proved","C91_class C91_filter C91_ocubiter C91_ocumaker C91_ocutenter C91_ocumakert C91_false_skew","spglib contracts: exact isometric operations forming a group; find_primitive returns a cell of the same size iff the crystal is primitive. C91_false_skew shows that the shape condition on the cell is needed.")
P("C92","proved","C92_frozen C92_fair C92_starved C92_starved_new C92_false_best","On Python 2 (dict.iteritems; on Python 3 get_move raises, C57). np.sqrt is a parameter: not negative, squared at most twice its argument.")
P("C93","proved","C93_min_distance C93_fragile","Second model in binary64 without overflow and NaN; the square root is a parameter with an error bound; three-term sums are added from left to right.")
P("C94","proved","C94_poscar C94_yaml C94_poscar_again C94_yaml_again C94_fragile C94_scale","Second model in binary64 without overflow, NaN and negative zero; YAML texts are modelled at mapping level.")
P("C95","proved","C95_construct C95_write C95_assign C95_setter C95_symmetry_view C95_synchronous C95_copies C95_separate C95_lattice_shared C95_stale","Arrays as heap objects; views of parts of an array and resizing in place are not modelled.")
P("C96","proved","C96_count C96_count_2d C96_triclinic","n < 2000 because of the equality test, see C30.")
P("C97","proved","C97_ocubiter C97_ocumaker C97_finishes C97_safe C97_used_up","The ternary applications are covered by C100.")
P("C98","proved","C98_parse C98_accepts C98_sites C98_ignored C98_short C98_yaml","Rows of another length than three are a ValueError in the model (numpy builds an array of another shape); inf and nan are not modelled.")
P("C99","proved","C99_float C99_int C99_unique","float and int are Python's; inf, nan, overflow and characters outside ASCII are not modelled. C98 is stated with these grammars.")
P("C100","proved","C100_ocutenter C100_ocumakert C100_unknown_species C100_finishes C100_safe C100_usual C100_draws","spglib, hashing and the random names are parameters. Running out of temporary names is described but not excluded.")
P("C101","proved","C101_binary C101_ternary C101_only_derivatives C101_in_plane","index below 2000 (float tolerance in the determinant test), hash without collisions on the decorations of the cell.")
P("C102","proved","C102_refused C102_suplat C102_finishes C102_unknown","index below 2000; spglib and the random names are parameters; Standardises follows from the contract used in C78.")
P("C103","proved","C103_of_ele C103_unitary C103_wyckoff","hash without collisions on the decorations of each size; operations satisfy the contract of C21 and keep the elements (and letters).")
P("C104","proved","C104_unitary C104_of_ele C104_ternary C104_levels_unitary C104_levels_of_ele","The specification (Spec/Crystal) mentions no storage order, index or number array. Hash without collisions on arrays over the elements involved.")
P("C105","proved","C105_binary C105_of_ele C105_ternary C105_binary_2d C105_of_ele_2d C105_ternary_2d inherited_exists","The operations of the enlarged cells are those spglib has to return (hypothesis Inherited); inherited_exists shows that such a list exists for every superlattice. New elements absent from the parent, sites of the enlarged cells distinct after rounding, hash without collisions. For volumes that are proper multiples of n the crystal is listed again as a superperiodic structure.")
P("C106","proved","C106_boron C106_fcc problemWalk_all","The random index of random_pop is a parameter (taken modulo the size of the set, as randint is); set iteration order is a parameter. problemWalk_all is the statement for any problem whose neighbour function does not fail.")
P("C107","proved","C107_cell C107_permutations C107_generator C107_structures C107_yaml C107_poscar C107_fragile","Exact arithmetic on the rounded values; C87 and C94 bound the effect of double precision. For POSCAR files: no ghost atoms, no two sites with the same reduced coordinates. That spglib returns the operations of the unrounded cell up to the error d is a hypothesis.")
P("C108","proved","C108_kept C108_ceiling C108_lost C108_bucky_ceiling C108_bucky_lost C108_bucky_collides","The digest is any function of the numbers; nothing else about xxhash is used. For C60 the statement is about the table of 120 permutations in the code.")
P("C109","proved","C109_fresh C109_write C109_later C109_unchanged C109_atomic C109_failed C109_read_back C109_missing C109_stale","Opening for writing fails only for a directory or an empty name; arrays are not resized in place; YAML files are the mapping written, not its text; C109_stale is a concrete cell.")
P("C110","proved","C110_grid C110_stru C110_equivalence C110_arrays C110_entries C110_write","Lattice matrices are compared as nested lists of numbers, as in the code; arrays as lattice matrices, for which numpy's == has no truth value, are not modelled. Entrywise form: rectangular grids with at least one row.")
P("C111","proved","C111_step C111_input C111_session C111_batch C111_order C111_lost C111_readable","Paths are compared as given (no links, no ./); click accepts the arguments; a command that does not end is interrupted. What the outputs contain is C79.")
P("C112","proved","C112_ocumaker C112_ocubiter C112_suplat C112_ocutenter C112_ocumakert C112_missing_pair C112_atclear C112_perturb C112_supcell C112_pcell C112_order C112_last C112_first_restriction C112_rejected C112_rejected_ati C112_unknown_command C112_no_input C112_bad_value C112_bad_value_suplat C112_bad_value_ter C112_bad_value_ati C112_missing_error C112_directory C112_no_scale C112_help C112_untouched","click is external: its reading of a table of options is modelled from its documentation (parser of versions 7 and 8). Wrong types are shown rejected for every command with typed options; order and last setting are stated for the options of ocumaker and ocubiter. A negative volume is treated like zero (both fail in the same way).")
P("C113","proved","C113_same_crystal C113_outcome C113_singular C113_sites_right C113_species_wrong C113_negative_factors C113_two_species_false","The number of copies is taken from the diagonal and the search for lattice points looks at non-negative coordinates only, so the method is right exactly for the matrices stated. The bound 100000 comes from the tolerance of the code (C32_false_at_200000).")
P("C114","proved","C114_safe C114_input C114_suplat_only C114_suplat_lost","Paths are compared as given; two spellings of one path count as two files, and os.makedirs records the named directory only. Both exceptions are real: C114_suplat_lost and C111_lost.")
P("C115","proved","C115_superlattices C115_occupations C115_workflow","spglib is a parameter: it is asked to answer with the relabelled crystal moved by some map (suplat) and with the operations of the exact cell up to translations near the exact ones (ocubiter, which sees rounded coordinates). No site may lie next to a rounding boundary, sites must differ in three decimals, random suffixes of one run must differ and the hash must not collide; each is needed (C107_fragile, C111_lost, C19).")
P("C116","proved","C116_agree C116_count C116_shape C116_exchange","The operations must permute the grid points exactly; for the counts they must form a group, for the exchange spglib must answer alike for the two pure seas. Hash without collisions on the decorations in question (the grid generator needs none: it compares texts).")
P("C117","proved","C117_exact C117_order C117_trinary","The species are distinct and new to the cell. The symmetry finder is taken to return, for every decoration of the sites, operations bringing about exactly those permutations of a fixed group that keep the decoration (findsAll_keepOps shows such a finder exists for every group). Hash without collisions on the decorations in question.")
P("C118","proved","C118_same_crystal C118_compose C118_factors C118_unit","The reduced coordinates of the larger cell, rounded as in the code, must be distinct; the index of the combined matrix stays below 100000 (C113).")
P("C119","proved","C119_refines C119_only C119_coprime","The bound 100000 is that of C32. A non-degenerate lattice is needed for the statements about uniqueness.")
P("C120","proved","C120_offers C120_positions C120_legal C120_get_move C120_no_move C120_size C120_out_of_step","get_move is stated for Python 2, where dict.iteritems exists (C57_python3 for Python 3). For C120_get_move at least one playout of depth at least one.")
P("C121","proved","C121_generator C121_renamed C121_any_species","The methods only look at atomic numbers, so a species is given by its number. Renamings need not map known elements to known elements.")
P("C122","proved","C122_mean C122_score C122_select C122_integers C122_worst C122_not_mean C122_leaf C122_mix","C55, C71 and C72 are about exact arithmetic; this says how far machine arithmetic is from it. Overflow, infinities and NaN are left out. The finding about Python 2 comes from the missing `from __future__ import division`.")
P("C123","proved","C123_in_sphere C123_query C123_centers C123_elements C123_fragile","With C39-C41 this gives the geometric meaning of what the program does in machine arithmetic. No overflow, infinities or NaN; sums of three terms are added from left to right.")
P("C124","proved","C124_unitary C124_of_ele C124_wyckoff C124_trinary C124_levels C124_harmless C124_extra C124_lost","Weakens the contract about spglib: the reported operations only have to form a group on the sites, not the full one.")
P("C125","proved","C125_first C125_choices C125_idempotent C125_append C125_filter C125_restrictions C125_images C125_reorder","C19 and C20 bound what is listed; this says exactly which ones. The specification is the function firsts of Spec/Firsts.")
P("C126","proved","C126_look C126_in_class C126_run C126_received C126_foreign C126_short C126_levels_unitary C126_levels_wyckoff C126_levels_of_ele","A structure is changed before the next call or not at all, levels are consumed one after the other, and the lattice array shared by all structures is left alone (C95). For the levels the operations must not exchange sites of different elements, which holds for spglib's. Losing a class and the IndexError are also shown on concrete runs.")
P("C127","proved","C127_bound C127_exact C127_root C127_small C127_same C127_lost C127_faithful_loses","Closes the gap left by the exact integer square root in `factorsRaw` (C27 to C29, C35, C78, C92, C102). A nearest root is shown to exist for every volume, so the hypotheses are met.")
P("C128","proved","C128_bytes C128_no_collision C128_store C128_uniform C128_mixed C128_twice C128_id","Little-endian memory and contiguous arrays are assumed. Reduces the no-collision hypotheses of C20 and its successors to the hash on byte strings.")
P("C129","proved","C129_complete C129_count C129_ocubiter C129_suplat C129_numbers","Counts draws; that random.choices draws them with equal probability is not modelled. Makes the exception of C66 quantitative.")
P("C130","proved","C130_ocubiter C130_ocumaker C130_files","Entries up to 99 A with coordinates rounding to at most 1 in absolute value; no coordinate with four decimals ending in 5, no image of a site and no squared distance (within 1e-4) a close call; C87_fragile and C123_fragile show that such provisos are needed. That spglib answers alike is a hypothesis (operations up to 1e-9 and lattice vectors; refined cells up to 1e-10, if refinement is asked). No overflow, infinities, NaN or negative zero.")
P("C131","proved","C131_cell C131_sort C131_permutations C131_gen C131_classes C131_equal C131_false_80 C131_false_101 C131_exact C131_equal_false_80","Sizes above 990 are not covered, nor for the generator those that are at least 100 gcd(d, 2000). That spglib returns the exact rotations, and translations within 1e-9, is a hypothesis. No overflow, infinities, NaN or negative zero.")
P("C132","proved","C132_single C132_type C132_accepts C132_lists","The 230 short symbols (Spec/SpaceGroups) are those of the International Tables in the spelling of spglib; that get_spacegroup returns one of these names followed by the number in parentheses is an assumption. Makes the failure of C38 exact.")
P("C133","proved","C133_text C133_numpy C133_small C133_large","The text is that of numpy 1.14 and later with the default print options (line width 75, threshold 1000, three numbers at each end). Atomic numbers are distinct for distinct species of the table.")
P("C134","proved","C134_ocutenter C134_ocumakert","The ternary applications write refined structures to YAML without rounding, so that spglib's own errors of up to 1e-10 reach the file; that case is left out. That spglib answers alike is a hypothesis, as in C130. No overflow, infinities, NaN or negative zero.")
here = os.path.dirname(os.path.abspath(__file__))
with open(os.path.join(here, "..", "MANIFEST.json"), "w") as f:
    json.dump({"claims": M}, f, indent=1, ensure_ascii=False)
    f.write("\n")
print(len(M), "claims")
