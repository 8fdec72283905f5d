{
 "claims": [
  {
   "property": "C01",
   "status": "proved",
   "theorems": [
    "Vega.DofSpec.C01_contains_iff_mem",
    "Vega.DofSpec.C01_eq_iff_same_set",
    "Vega.DofSpec.C01_containsAll_iff_subset",
    "Vega.DofSpec.C01_containsAnyOf_iff_common",
    "Vega.DofSpec.C01_empty_iff",
    "Vega.DofSpec.C01_iteration",
    "Vega.DofSpec.C01_size"
   ],
   "note": "DOFS as 6-bit codes; every set of degrees of freedom."
  },
  {
   "property": "C02",
   "status": "partial",
   "theorems": [
    "Vega.DofSpec.C02_read_digits",
    "Vega.DofSpec.C02_bad_digit_rejected_partial",
    "Vega.DofSpec.C02_negative_rejected_partial",
    "Vega.DofSpec.C02_bad_digit_clean_rejection_false",
    "Vega.DofSpec.C02_round_trip",
    "Vega.DofSpec.C02_empty_reads_as_DX",
    "Vega.DofSpec.C02_bad_digit_always_false"
   ],
   "note": "Reading and round trip proved for every digit string and every non-empty set. The clean rejection of bad codes is refuted (C02_bad_digit_clean_rejection_false): every bad code above 22 reaches undefined behaviour before the exception (C02_bad_digit_always_false); the empty set is written 0 and read back as DX."
  },
  {
   "property": "C03",
   "status": "proved",
   "theorems": [
    "Vega.DofMatrixSpec.C03_find_last_stored",
    "Vega.DofMatrixSpec.C03_diagonal_off_diagonal_zero",
    "Vega.DofMatrixSpec.C03_refused_iff",
    "Vega.DofMatrixSpec.C03_symmetric"
   ],
   "note": "All three matrix types, every history of stores; doubles are exact rationals with the real tolerance."
  },
  {
   "property": "C04",
   "status": "proved",
   "theorems": [
    "Vega.DofMatrixSpec.C04_asColumnsVector",
    "Vega.DofMatrixSpec.C04_asUpperTriangularColumnsVector",
    "Vega.DofMatrixSpec.C04_diagonal",
    "Vega.DofMatrixSpec.C04_hasRotations",
    "Vega.DofMatrixSpec.C04_transposed",
    "Vega.DofMatrixSpec.C04_transposed_involutive",
    "Vega.DofMatrixSpec.C04_isDiagonal",
    "Vega.DofMatrixSpec.C04_isSymmetric",
    "Vega.DofMatrixSpec.C04_isEqual_undefined",
    "Vega.DofMatrixSpec.C04_isEqual_defined"
   ],
   "note": "All layouts, transposed, isDiagonal and isSymmetric on every reachable matrix. DOFMatrix::isEqual has undefined behaviour on some pairs (C04_isEqual_undefined)."
  },
  {
   "property": "C05",
   "status": "partial",
   "theorems": [
    "Vega.DofCoefsSpec.C05_sum_always_false",
    "Vega.DofCoefsSpec.C05_getDOFS",
    "Vega.DofCoefsSpec.C05_isEmpty",
    "Vega.DofCoefsSpec.C05_ofDofs",
    "Vega.DofCoefsSpec.C05_ofDof",
    "Vega.DofCoefsSpec.C05_setValue",
    "Vega.DofCoefsSpec.C05_sum_partial",
    "Vega.DofCoefsSpec.C05_sum_false",
    "Vega.DofCoefsSpec.C05_sum_sequence",
    "Vega.DofCoefsSpec.C05_sum_order_independent",
    "Vega.DofCoefsSpec.C05_scale",
    "Vega.DofCoefsSpec.C05_trichotomy",
    "Vega.DofCoefsSpec.C05_eq_not_transitive",
    "Vega.DofCoefsSpec.C05_index_six_undefined",
    "Vega.DofCoefsSpec.C05_index"
   ],
   "note": "Construction, getDOFS, scaling, trichotomy of < and == proved; the sum is proved where the right operand has every degree of freedom the left one has, and refuted otherwise (C05_sum_false: coefficients are lost; C05_sum_always_false: all those up to 2^900). == is tolerant, hence not transitive (C05_eq_not_transitive). Exact arithmetic instead of floating point."
  },
  {
   "property": "C06",
   "status": "partial",
   "theorems": [
    "Vega.RefSpec.C06_irrefl",
    "Vega.RefSpec.C06_trans",
    "Vega.RefSpec.C06_trichotomy",
    "Vega.RefSpec.C06_equivalence",
    "Vega.RefSpec.C06_types",
    "Vega.RefSpec.C06_lt_congr",
    "Vega.RefSpec.C06_hash_false",
    "Vega.RefSpec.C06_hash_partial"
   ],
   "note": "Strict weak order with == as its equivalence proved for all references. \"Equal references have equal hashes\" is refuted (C06_hash_false); C06_hash_partial keeps what is true."
  },
  {
   "property": "C07",
   "status": "partial",
   "theorems": [
    "Vega.ContainerSpec.C07_erase_by_original_id_always_false",
    "Vega.ContainerSpec.C07_find_partial",
    "Vega.ContainerSpec.C07_add",
    "Vega.ContainerSpec.C07_objects_size",
    "Vega.ContainerSpec.C07_erase_by_original_id_false",
    "Vega.ContainerSpec.C07_erase_duplicate_false"
   ],
   "note": "Proved for every history in which erase is called with the reference of an object of the container. For references without automatic id or of rejected duplicates the two indices come apart (the two _false theorems; after every history, C07_erase_by_original_id_always_false)."
  },
  {
   "property": "C08",
   "status": "proved",
   "theorems": [
    "Vega.ContainerSpec.C08_validate"
   ],
   "note": "Every container content reachable by add/erase, every validity predicate, every mode."
  },
  {
   "property": "C09",
   "status": "proved",
   "theorems": [
    "Vega.ContainerSpec.C09_ids_distinct",
    "Vega.ContainerSpec.C09_create_fresh",
    "Vega.ContainerSpec.C09_reset",
    "Vega.ContainerSpec.C09_counter_monotone",
    "Vega.ContainerSpec.C09_bestId"
   ],
   "note": "Unbounded ids (overflow of the int counter not modelled)."
  },
  {
   "property": "C10",
   "status": "proved",
   "theorems": [
    "Vega.NodeSpec.C10_bijection",
    "Vega.NodeSpec.C10_position_returned",
    "Vega.NodeSpec.C10_positions_stable",
    "Vega.NodeSpec.C10_reserve_auto_id_false"
   ],
   "note": "Every history of addNode/findOrReserveNode with explicit ids or automatic ids through addNode. findOrReserveNode(AUTO_ID) breaks the bijection (C10_reserve_auto_id_false); no caller does this."
  },
  {
   "property": "C11",
   "status": "partial",
   "theorems": [
    "Vega.NodeSpec.C11_last_definition",
    "Vega.NodeSpec.C11_undefined_node_reported_false",
    "Vega.NodeSpec.C11_never_reported_false"
   ],
   "note": "Last definition wins, for every history. \"validate reports nodes referenced but never defined\" is refuted (C11_undefined_node_reported_false; C11_never_reported_false, for every history)."
  },
  {
   "property": "C12",
   "status": "proved",
   "theorems": [
    "Vega.CellSpec.C12_automatic_cell_id",
    "Vega.NodeSpec.C12_automatic_node_id"
   ],
   "note": "Unbounded ids (overflow of the int counter not modelled)."
  },
  {
   "property": "C13",
   "status": "proved",
   "theorems": [
    "Vega.CellSpec.C13_connectivity",
    "Vega.CellSpec.C13_add_succeeds",
    "Vega.CellSpec.C13_wrong_length_false"
   ],
   "note": "For connectivities of the length required by the cell type; other lengths corrupt the storage (C13_wrong_length_false), the length is only checked at TRACE log level."
  },
  {
   "property": "C14",
   "status": "proved",
   "theorems": [
    "Vega.CellSpec.C14_ids_positions",
    "Vega.CellSpec.C14_counts_sum"
   ],
   "note": "Every history of addCell with unused ids."
  },
  {
   "property": "C15",
   "status": "partial",
   "theorems": [
    "Vega.CellSpec.C15_update_partial",
    "Vega.CellSpec.C15_update_surface_false",
    "Vega.CellSpec.C15_update_offsets_false",
    "Vega.CellSpec.C15_stale_cell_false",
    "Vega.CellSpec.C15_stale_always_false",
    "Vega.CellSpec.C15_update_unreadable_false"
   ],
   "note": "Proved for volume cells; for the others the update leaves the additional data out of step (C15_update_surface_false, C15_update_offsets_false), and in every mesh the updated cell cannot be read (C15_update_unreadable_false). Every successful update, of every mesh, leaves the replaced cell in the counts by type (C15_stale_cell_false, C15_stale_always_false)."
  },
  {
   "property": "C16",
   "status": "partial",
   "theorems": [
    "Vega.GroupSpec.C16_remove_hides_always_false",
    "Vega.GroupSpec.C16_rename_taken_always_false",
    "Vega.GroupSpec.C16_removed_by_id_always_false",
    "Vega.GroupSpec.C16_by_name",
    "Vega.GroupSpec.C16_create",
    "Vega.GroupSpec.C16_rename",
    "Vega.GroupSpec.C16_remove_name",
    "Vega.GroupSpec.C16_by_id_partial",
    "Vega.GroupSpec.C16_rename_taken_false",
    "Vega.GroupSpec.C16_removed_group_by_id_false",
    "Vega.GroupSpec.C16_remove_hides_other_false"
   ],
   "note": "By-name registry proved for all histories with renames onto free names; by-id registry for histories without removal. Renaming onto a taken name and removal are refuted (three _false theorems with a witness; for every registry, C16_rename_taken_always_false, C16_removed_by_id_always_false and C16_remove_hides_always_false)."
  },
  {
   "property": "C17",
   "status": "partial",
   "theorems": [
    "Vega.BoxSpec.C17_cells",
    "Vega.BoxSpec.C17_nodes",
    "Vega.BoxSpec.C17_accepted",
    "Vega.BoxSpec.C17_empty",
    "Vega.BoxSpec.C17_add_cells",
    "Vega.BoxSpec.C17_add_nodes_partial",
    "Vega.BoxSpec.C17_contains_false",
    "Vega.BoxSpec.C17_add_nodes_false",
    "Vega.BoxSpec.C17_remove_absent_node_false",
    "Vega.BoxSpec.C17_removed_group_false"
   ],
   "note": "All histories of additions and removals; which are accepted and when a container is told empty. Refuted parts: containsCellPosition ignores groups, merging a node container drops its cell groups, removal of an absent node and a removed group are undefined behaviour (_false theorems)."
  },
  {
   "property": "C18",
   "status": "partial",
   "theorems": [
    "Vega.FaceSpec.C18_closed_partial",
    "Vega.FaceSpec.C18_hexa20_false",
    "Vega.FaceSpec.C18_hexa20_partial",
    "Vega.FaceSpec.C18_corners"
   ],
   "note": "All solid types but HEXA20, every cell. Refuted for HEXA20 (C18_hexa20_false): a duplicated node and a face turned inside out."
  },
  {
   "property": "C19",
   "status": "partial",
   "theorems": [
    "Vega.FaceSpec.C19_penta_always_false",
    "Vega.FaceSpec.C19_pyra_always_false",
    "Vega.FaceSpec.C19_named_face",
    "Vega.FaceSpec.C19_hexa",
    "Vega.FaceSpec.C19_penta_partial",
    "Vega.FaceSpec.C19_pyra_partial",
    "Vega.FaceSpec.C19_tetra4",
    "Vega.FaceSpec.C19_tetra10_partial",
    "Vega.FaceSpec.C19_tetra10_false",
    "Vega.FaceSpec.C19_penta_false",
    "Vega.FaceSpec.C19_pyra_false",
    "Vega.FaceSpec.C19_tetra10_exactly_partial",
    "Vega.FaceSpec.C19_tetra10_last"
   ],
   "note": "Round trip proved for HEXA8, HEXA20, TETRA4 and part of the faces of the others, refuted for the remaining ones (for every pentahedron and pyramid, C19_penta_always_false and C19_pyra_always_false; C19_tetra10_exactly_partial says exactly when on TETRA10, C19_tetra10_last). Pairs of nodes written as the input format prescribes give the right face on all solid types (C19_named_face)."
  },
  {
   "property": "C20",
   "status": "proved",
   "theorems": [
    "Vega.CellSpec.C20_polyType"
   ],
   "note": "All numbers of nodes."
  },
  {
   "property": "C21",
   "status": "proved",
   "theorems": [
    "Vega.Nastran.C21_expand",
    "Vega.Nastran.C21_unique",
    "Vega.Nastran.C21_idempotent"
   ],
   "note": "Every line, both formats: relational specification of tab stops, shown to have one solution."
  },
  {
   "property": "C22",
   "status": "proved",
   "theorems": [
    "Vega.Nastran.C22_columns",
    "Vega.Nastran.C22_round_trip",
    "Vega.Nastran.C22_mixed_formats",
    "Vega.Nastran.C22_plus_after_short_line_false"
   ],
   "note": "Every line (C22_columns) and every list of values, on any number of lines (C22_round_trip). Beyond the property: a continuation marked + after a line that is not full does not start at the ninth value (C22_plus_after_short_line_false)."
  },
  {
   "property": "C23",
   "status": "partial",
   "theorems": [
    "Vega.Nastran.C23_split",
    "Vega.Nastran.C23_round_trip_partial",
    "Vega.Nastran.C23_plus_value_false",
    "Vega.Nastran.C23_plus_mark_false",
    "Vega.Nastran.C23_short_line_false",
    "Vega.Nastran.C23_plus_always_false"
   ],
   "note": "Cutting at commas proved in full. Whole cards: proved for lines of eight values whose first value has no plus sign; refuted otherwise (C23_plus_value_false: the value is lost and the next card swallowed, for every such card by C23_plus_always_false; C23_short_line_false; C23_plus_mark_false: with nine fields the continuation mark stays among the values)."
  },
  {
   "property": "C24",
   "status": "proved",
   "theorems": [
    "Vega.Nastran.C24_format"
   ],
   "note": "Every line."
  },
  {
   "property": "C25",
   "status": "partial",
   "theorems": [
    "Vega.FieldSpec.C25_by_always_false",
    "Vega.Nastran.C25_thru_partial",
    "Vega.Nastran.C25_between",
    "Vega.Nastran.C25_by_false",
    "Vega.Nastran.C25_leading_thru_false",
    "Vega.Nastran.C25_by_zero_false"
   ],
   "note": "Ids and THRU ranges in either order proved for every list. Ranges with BY are refuted, for every range and every step of at least two (C25_by_always_false; C25_by_false: 1 THRU 10 BY 3 gives 1, 2, 5, 8), a leading THRU is undefined behaviour, BY 0 does not end."
  },
  {
   "property": "C26",
   "status": "proved",
   "theorems": [
    "Vega.Nastran.C26_standard",
    "Vega.Nastran.C26_unchanged"
   ],
   "note": "Every notation, blanks anywhere. The conversion of standard notation to double is left to the library."
  },
  {
   "property": "C27",
   "status": "partial",
   "theorems": [
    "Vega.Nastran.C27_lines",
    "Vega.Nastran.C27_insert",
    "Vega.Nastran.C27_cards_partial",
    "Vega.Nastran.C27_indented_comment_false",
    "Vega.Nastran.C27_free_comment_false",
    "Vega.Nastran.C27_blank_line_false"
   ],
   "note": "The sequence of data lines is proved independent of comments and blank lines. At the level of cards, comment lines are proved harmless in fixed format; refuted for indented comments, comments inside free format cards and blank lines inside cards (three _false theorems)."
  },
  {
   "property": "C28",
   "status": "proved",
   "theorems": [
    "Vega.SetSpec.C28_membership",
    "Vega.SetSpec.C28_remove",
    "Vega.SetSpec.C28_set_exists"
   ],
   "note": "Every history of creations, registrations and removals."
  },
  {
   "property": "C29",
   "status": "partial",
   "theorems": [
    "Vega.SetSpec.C29_membership",
    "Vega.SetSpec.C29_views",
    "Vega.SetSpec.C29_dangling_false",
    "Vega.SetSpec.C29_remove_from_one_set_false"
   ],
   "note": "Every history; the two queries are proved to be views of one relation. Refuted: a constraint registered by reference and never defined is undefined behaviour in the query (C29_dangling_false); removing a constraint from one set drops it from the model, and querying another set it is in is undefined behaviour (C29_remove_from_one_set_false). The sets by constraint query does not see sets that include others (SPCADD)."
  },
  {
   "property": "C30",
   "status": "partial",
   "theorems": [
    "Vega.CommonSpec.C30_at_most_once",
    "Vega.CommonSpec.C30_common",
    "Vega.CommonSpec.C30_uncommon",
    "Vega.CommonSpec.C30_partition",
    "Vega.CommonSpec.C30_active",
    "Vega.CommonSpec.C30_load_sets_partial",
    "Vega.CommonSpec.C30_static_load_set_false",
    "Vega.CommonSpec.C30_load_sets_of",
    "Vega.CommonSpec.C30_used_twice_false",
    "Vega.CommonSpec.C30_missing_set_false"
   ],
   "note": "Proved for constraint sets, every list of analyses that list no set twice. For load sets only dynamic (DLOAD) sets are ever reported common: a static set used by all analyses is in neither list (C30_static_load_set_false). A set listed twice by an analysis is miscounted, a missing set is undefined behaviour."
  },
  {
   "property": "C31",
   "status": "partial",
   "theorems": [
    "Vega.CombinedSpec.C31_flatten_partial",
    "Vega.CombinedSpec.C31_frame",
    "Vega.CombinedSpec.C31_nested_order_false",
    "Vega.CombinedSpec.C31_same_set_twice_false",
    "Vega.CombinedSpec.C31_missing_set"
   ],
   "note": "Any depth of combination and any factors, under the conditions of Good: combinations of combinations come after the sets they combine, no loading is taken over unscaled twice. Both conditions are necessary (C31_nested_order_false: nested loads are lost; C31_same_set_twice_false). A loading is represented by its effect at one degree of freedom, in exact arithmetic, and scaling a copy is assumed to leave the original alone: not so for loadings given by a function (C41_shared_false)."
  },
  {
   "property": "C32",
   "status": "partial",
   "theorems": [
    "Vega.RedundantSpec.C32_redundant_partial",
    "Vega.RedundantSpec.C32_succeeds_partial",
    "Vega.RedundantSpec.C32_in_two_sets_false"
   ],
   "note": "Every model, every sharing and every iteration order of the unordered containers, in exact arithmetic; conflicting values are reported by an exception. Excluded: an SPC listed in two sets of one analysis is taken for redundant with itself and lost (C32_in_two_sets_false), and the exclusions of C39."
  },
  {
   "property": "C33",
   "status": "proved",
   "theorems": [
    "Vega.DirectSpec.C33_one",
    "Vega.DirectSpec.C33_all",
    "Vega.DirectSpec.C33_small"
   ],
   "note": "Every list of symmetric direct matrices over known nodes, every maximal size from 2 on (C33_one, C33_all); sizes under 2 are refused (C33_small). The proof holds for every order of the pairs of nodes."
  },
  {
   "property": "C34",
   "status": "partial",
   "theorems": [
    "Vega.PipelineSpec.C34_idempotent",
    "Vega.PipelineSpec.C34_first_call",
    "Vega.PipelineSpec.C34_order",
    "Vega.PipelineSpec.C34_passes",
    "Vega.PipelineSpec.C34_after_failure_false"
   ],
   "note": "Idempotent, in fixed order, every configuration. After a failed call the passes already applied are applied again (C34_after_failure_false)."
  },
  {
   "property": "C35",
   "status": "proved",
   "theorems": [
    "Vega.PipelineSpec.C35_get",
    "Vega.PipelineSpec.C35_contains",
    "Vega.PipelineSpec.C35_independent"
   ],
   "note": "Every history."
  },
  {
   "property": "C36",
   "status": "partial",
   "theorems": [
    "Vega.RigidSpec.C36_rigid",
    "Vega.RigidSpec.C36_some_dofs",
    "Vega.RigidSpec.C36_rotations",
    "Vega.RigidSpec.C36_all_rotations",
    "Vega.RigidSpec.C36_near",
    "Vega.RigidSpec.C36_near_false"
   ],
   "note": "Every position of master and slaves, every subset of dofs, with and without rotations. Exact arithmetic. C36_rigid and C36_all_rotations: each coordinate difference is zero or above the tolerance, 5/2^52, below which the code takes it for zero; without this the relations can hold for a slave that is not carried along (C36_near_false), but by no more than the rotation times this tolerance (C36_near). As in the code, the displacement coordinate systems of the nodes are ignored; the registration of the relations in constraint sets is not part of the model."
  },
  {
   "property": "C37",
   "status": "proved",
   "theorems": [
    "Vega.LmpcSpec.C37_sum",
    "Vega.LmpcSpec.C37_order",
    "Vega.LmpcSpec.C37_dofs"
   ],
   "note": "Every list of participations, whose magnitudes do not sum above half the largest double."
  },
  {
   "property": "C38",
   "status": "proved",
   "theorems": [
    "Vega.SpcSpec.C38_dofs",
    "Vega.SpcSpec.C38_double",
    "Vega.SpcSpec.C38_reference",
    "Vega.SpcSpec.C38_free",
    "Vega.SpcSpec.C38_reference_not_free",
    "Vega.SpcSpec.C38_constructors",
    "Vega.SpcSpec.C38_hasReferences"
   ],
   "note": "Every history of setters, every constructor."
  },
  {
   "property": "C39",
   "status": "partial",
   "theorems": [
    "Vega.RedundantSpec.C39_remove_partial",
    "Vega.RedundantSpec.C39_spcadd_false",
    "Vega.RedundantSpec.C39_group_false"
   ],
   "note": "Every model, plain sets, nodes given one by one, numeric values. Refuted outside: an analysis that uses the SPC through SPCADD loses it (C39_spcadd_false); a node given through a group is undefined behaviour (C39_group_false)."
  },
  {
   "property": "C40",
   "status": "partial",
   "theorems": [
    "Vega.PressureSpec.C40_triangle",
    "Vega.PressureSpec.C40_quadrangle",
    "Vega.PressureSpec.C40_shares",
    "Vega.PressureSpec.C40_parallelogram",
    "Vega.PressureSpec.C40_aligned_false",
    "Vega.PressureSpec.C40_repeated_node_false",
    "Vega.PressureSpec.C40_other_node_false"
   ],
   "note": "Every triangle not flat and every quadrangle without three aligned corners, warped or not; node by node (C40_shares); in a parallelogram every corner gets a quarter. Refuted: three aligned corners, or a node given twice, make the forces NaN (C40_aligned_false, C40_repeated_node_false); the force at a node outside the loading is an uninitialised vector. Exact real arithmetic."
  },
  {
   "property": "C41",
   "status": "partial",
   "theorems": [
    "Vega.KindsSpec.C41_scale_partial",
    "Vega.KindsSpec.C41_succeeds",
    "Vega.KindsSpec.C41_compose",
    "Vega.KindsSpec.C41_others",
    "Vega.KindsSpec.C41_imposed_partial",
    "Vega.KindsSpec.C41_imposed_false",
    "Vega.KindsSpec.C41_rotation_false",
    "Vega.KindsSpec.C41_shared_false"
   ],
   "note": "Every kind but two is multiplied by k, any k (C41_scale_partial), fails exactly when its function is undefined (C41_succeeds), and k then l is k*l. Refuted: rotations are multiplied by the square of k (C41_rotation_false), displacements imposed on n degrees of freedom by k to the power n (C41_imposed_false; right for one, C41_imposed_partial); a copy of a loading given by a function shares it, so scaling the copy scales the original (C41_shared_false). Exact arithmetic."
  },
  {
   "property": "C42",
   "status": "partial",
   "theorems": [
    "Vega.KindsSpec.C42_gravity_always_false",
    "Vega.KindsSpec.C42_partial",
    "Vega.KindsSpec.C42_collect",
    "Vega.KindsSpec.C42_cleanup",
    "Vega.KindsSpec.C42_cleanup_succeeds",
    "Vega.KindsSpec.C42_kept",
    "Vega.KindsSpec.C42_two_nodes_false",
    "Vega.KindsSpec.C42_gravity_false",
    "Vega.KindsSpec.C42_pressure_false"
   ],
   "note": "Every kind but FORCE1, when the numbers a loading is made of are null or above the tolerance (C42_partial); the clean-up keeps exactly the others (C42_cleanup), fails only on undefined functions, and what it keeps applies something (C42_kept, kinds that do not depend on nodes). Refuted: every FORCE1 is discarded (C42_two_nodes_false); tiny factors of huge vectors and tiny pressures on huge faces too (C42_gravity_false, C42_gravity_always_false for every factor below the tolerance, C42_pressure_false)."
  },
  {
   "property": "C43",
   "status": "partial",
   "theorems": [
    "Vega.CsSpec.C43_axes",
    "Vega.CsSpec.C43_dependent",
    "Vega.CsSpec.C43_from_nodes",
    "Vega.CsSpec.C43_orientation",
    "Vega.CsSpec.C43_orientation_nodes",
    "Vega.CsSpec.C43_cylindrical_base",
    "Vega.CsSpec.C43_axis_false",
    "Vega.CsSpec.C43_scalar_product",
    "Vega.CsSpec.C43_distance",
    "Vega.CsSpec.C43_build_partial",
    "Vega.CsSpec.C43_build_order_false"
   ],
   "note": "Axes from any two independent vectors, from nodes, from a direction, and the local base of a cylindrical system: direct and orthonormal (C43_axes, C43_from_nodes, C43_orientation, C43_orientation_nodes, C43_cylindrical_base); vectors keep scalar products and positions keep distances (any chain of Cartesian systems). Dependent vectors give axes that are not numbers, with no report (C43_dependent). Refuted: the base of a cylindrical system at a point of its axis is not a number (C43_axis_false); a system by nodes that are given in a system built later gets axes that are not numbers (C43_build_order_false; right when the nodes are in the global system, C43_build_partial). Exact real arithmetic."
  },
  {
   "property": "C44",
   "status": "partial",
   "theorems": [
    "Vega.CsSpec.C44_orientation_vector",
    "Vega.CsSpec.C44_orientation_partial",
    "Vega.CsSpec.C44_orientation_twice_false",
    "Vega.CsSpec.C44_vector",
    "Vega.CsSpec.C44_position",
    "Vega.CsSpec.C44_cylindrical",
    "Vega.CsSpec.C44_spherical",
    "Vega.CsSpec.C44_round_trip",
    "Vega.CsSpec.C44_orientation_false",
    "Vega.CsSpec.C44_history_false",
    "Vega.CsSpec.C44_not_built_false",
    "Vega.CsSpec.C44_cycle_false",
    "Vega.CsSpec.C44_missing_false"
   ],
   "note": "Positions and vectors through any chain of Cartesian systems (C44_position, C44_vector), cylindrical and spherical coordinates at the innermost level (C44_cylindrical, C44_spherical), vectors to local and back (C44_round_trip, built systems relative to the global one). Refuted: an orientation relative to another system applies it twice (C44_orientation_false; C44_orientation_twice_false for every such orientation, with the exact condition under which the position is right nevertheless; vectors are right, C44_orientation_vector, and positions relative to the global system, C44_orientation_partial); a Cartesian system nested in a cylindrical one depends on the last local base computed (C44_history_false); conversion before build reads an uninitialised matrix (C44_not_built_false); cyclic references never end (C44_cycle_false); a missing reference is undefined behaviour (C44_missing_false). The LU inversion is represented by its result. Exact real arithmetic."
  },
  {
   "property": "C45",
   "status": "proved",
   "theorems": [
    "Vega.CsStoreSpec.C45_position",
    "Vega.CsStoreSpec.C45_find",
    "Vega.CsStoreSpec.C45_distinct",
    "Vega.CsStoreSpec.C45_stable",
    "Vega.CsStoreSpec.C45_succeeds",
    "Vega.CsStoreSpec.C45_orientation"
   ],
   "note": "Every history of definitions, reservations and questions, with other meshes taking positions in between; fewer than INT_MAX positions where C45_stable and C45_orientation say so. Positions are unbounded naturals. The comparison of orientations is a parameter."
  },
  {
   "property": "C46",
   "status": "partial",
   "theorems": [
    "Vega.StepSpec.C46_undefined_exactly_false",
    "Vega.StepSpec.C46_count_end",
    "Vega.StepSpec.C46_step_count",
    "Vega.StepSpec.C46_step_end",
    "Vega.StepSpec.C46_whole",
    "Vega.StepSpec.C46_undefined_false",
    "Vega.StepSpec.C46_no_steps_false",
    "Vega.StepSpec.C46_decimal"
   ],
   "note": "Exact arithmetic. A null step or a number of steps that is not an int is undefined behaviour (C46_undefined_false; C46_undefined_exactly_false: exactly those), no steps at all give a step that is not a number (C46_no_steps_false). C46_decimal: with decimal steps, the nearest doubles, the last step may be missing although the claim (within one step) holds."
  },
  {
   "property": "C47",
   "status": "partial",
   "theorems": [
    "Vega.SectionSpec.C47_bar",
    "Vega.SectionSpec.C47_rod",
    "Vega.SectionSpec.C47_i",
    "Vega.SectionSpec.C47_i_equal_flanges",
    "Vega.SectionSpec.C47_i_refused",
    "Vega.SectionSpec.C47_tube_partial",
    "Vega.SectionSpec.C47_tube_card_false",
    "Vega.SectionSpec.C47_tube_negative_false"
   ],
   "note": "Rectangles, discs and I sections as integrals over the region (C47_bar, C47_rod, C47_i, C47_i_equal_flanges, C47_i_refused) and tubes built from both radii (C47_tube_partial). Refuted for tubes read from a card: the parser passes the thickness where the inner radius is expected (C47_tube_card_false; negative area for thick tubes, C47_tube_negative_false). Exact arithmetic instead of doubles."
  },
  {
   "property": "C48",
   "status": "partial",
   "theorems": [
    "Vega.ElasticSpec.C48_refused",
    "Vega.ElasticSpec.C48_given",
    "Vega.ElasticSpec.C48_two",
    "Vega.ElasticSpec.C48_one",
    "Vega.ElasticSpec.C48_density",
    "Vega.ElasticSpec.C48_mat1_partial",
    "Vega.ElasticSpec.C48_mat1_blank_false"
   ],
   "note": "Refusal (C48_refused), given constants kept (C48_given), isotropy relation with exactly two given (C48_two), one given (C48_one), density, expansion and reference temperature (C48_density), and MAT1 cards with E or G (C48_mat1_partial, which assumes that the derived constants are ordinary numbers). Refuted: a MAT1 card without E, G and NU is accepted as a material without stiffness (C48_mat1_blank_false). Exact arithmetic instead of doubles."
  },
  {
   "property": "C49",
   "status": "partial",
   "theorems": [
    "Vega.CompositeSpec.C49_sym",
    "Vega.CompositeSpec.C49_full",
    "Vega.CompositeSpec.C49_refused",
    "Vega.CompositeSpec.C49_card",
    "Vega.CompositeSpec.C49_accepted"
   ],
   "note": "C49_sym, C49_full, C49_refused, C49_card, and exactly which cards are accepted (C49_accepted). Exact arithmetic for the thicknesses instead of doubles."
  },
  {
   "property": "C50",
   "status": "partial",
   "theorems": [
    "Vega.DiscreteSpec.C50_vector",
    "Vega.DiscreteSpec.C50_rotations",
    "Vega.DiscreteSpec.C50_symmetric_partial",
    "Vega.DiscreteSpec.C50_lower_false"
   ],
   "note": "Layout for every element (C50_vector, C50_rotations); the values are the last given for each unordered pair of unknowns, for symmetric elements whose values between the two nodes were given with the first node as row (C50_symmetric_partial). Refuted otherwise: values given with the second node as row are not exported at all (C50_lower_false)."
  },
  {
   "property": "C51",
   "status": "partial",
   "theorems": [
    "Vega.DirectSpec.C51_find_always_false",
    "Vega.DirectSpec.C51_dofs_always_false",
    "Vega.DirectSpec.C51_last_given",
    "Vega.DirectSpec.C51_nodes",
    "Vega.DirectSpec.C51_ids",
    "Vega.DirectSpec.C51_find_false",
    "Vega.DirectSpec.C51_spring_partial",
    "Vega.DirectSpec.C51_springs_false",
    "Vega.DirectSpec.C51_dofs_false"
   ],
   "note": "Every history, by positions (C51_last_given, C51_nodes) and by node ids (C51_ids), as read entry by entry, which is what all the callers do. Refuted: the copies that findSubmatrix returns lose the coefficients below the diagonal when read by their own accessor (C51_find_false; in every matrix, C51_find_always_false); springs that share an unknown replace its coefficient instead of adding to it (C51_springs_false, C51_spring_partial); the degrees of freedom reported for a node are those of the whole matrix (C51_dofs_false; for every matrix without coefficient on the node of position 0 alone, C51_dofs_always_false)."
  },
  {
   "property": "C52",
   "status": "proved",
   "theorems": [
    "Vega.CliSpec.C52_round_trip",
    "Vega.CliSpec.C52_reads",
    "Vega.CliSpec.C52_refused"
   ],
   "note": "C52_round_trip, C52_reads (an equivalence, so it covers case, blanks and refusal), C52_refused. Characters are ASCII bytes in the C locale."
  },
  {
   "property": "C53",
   "status": "partial",
   "theorems": [
    "Vega.CliSpec.C53_strict_parsing",
    "Vega.CliSpec.C53_strict_partial",
    "Vega.CliSpec.C53_best_effort",
    "Vega.CliSpec.C53_mesh_false",
    "Vega.CliSpec.C53_writing_false"
   ],
   "note": "C53_strict_parsing, C53_best_effort hold. C53_strict_partial covers Systus. C53_mesh_false: the flag onlyMesh is set and never read, so MESH_AT_LEAST translates exactly as BEST_EFFORT. C53_writing_false: the Aster and Nastran writers never take the mode of the configuration, so their writing errors do not end a strict translation. The parsing functions, passes and writers are parameters; only the bulk section loop is modelled."
  },
  {
   "property": "C54",
   "status": "proved",
   "theorems": [
    "Vega.CliSpec.C54_classified"
   ],
   "note": "C54_classified, over all 32-bit values, with the __GNUC__ branch."
  },
  {
   "property": "C55",
   "status": "proved",
   "theorems": [
    "Vega.NodeSpec.C55_same_part_iff"
   ],
   "note": "Every history of additions and reservations."
  },
  {
   "property": "C56",
   "status": "partial",
   "theorems": [
    "Vega.NodeSpec.C56_unused_nodes_false",
    "Vega.NodeSpec.C56_exactly",
    "Vega.NodeSpec.C56_partial"
   ],
   "note": "C56_exactly: which nodes are told unused, for every history. C56_partial: no node of a cell that was known when the cell was added. Refuted: a node first mentioned by a cell and defined later is still counted as unused (C56_unused_nodes_false)."
  },
  {
   "property": "C57",
   "status": "partial",
   "theorems": [
    "Vega.FieldSpec.C57_empty",
    "Vega.FieldSpec.C57_empty_beyond_always_false",
    "Vega.Nastran.C57_keyword",
    "Vega.Nastran.C57_fields",
    "Vega.Nastran.C57_empty_beyond_end_false"
   ],
   "note": "Every sequence of operations. isNextEmpty(n) for n > 1 may look beyond the end of the card (C57_empty_beyond_end_false): with n or more fields left it tells exactly whether the n next are empty (C57_empty), with fewer and at least one left it always reads beyond the card (C57_empty_beyond_always_false)."
  },
  {
   "property": "C58",
   "status": "partial",
   "theorems": [
    "Vega.SetSpec.C58_membership_partial",
    "Vega.SetSpec.C58_by_number_false",
    "Vega.SetSpec.C58_mixing_false"
   ],
   "note": "Proved when every registration and the query use the full reference of a numbered set. The code tests the numbers of the objective instead of those of the set: look-up by number loses unnumbered objectives (C58_by_number_false) and mixes unnumbered sets (C58_mixing_false)."
  },
  {
   "property": "C59",
   "status": "partial",
   "theorems": [
    "Vega.RedundantSpec.C59_last_false",
    "Vega.RedundantSpec.C59_imposed_partial",
    "Vega.RedundantSpec.C59_two_on_a_node_false"
   ],
   "note": "Every model and every iteration order, at most one imposed displacement by node and analysis. With two on a node only the degrees of freedom of the last are freed (C59_two_on_a_node_false; C59_last_false for every model). Exclusions of C39 apply."
  },
  {
   "property": "C60",
   "status": "partial",
   "theorems": [
    "Vega.Cord2Spec.C60_axes",
    "Vega.Cord2Spec.C60_aligned",
    "Vega.Cord2Spec.C60_points_partial",
    "Vega.Cord2Spec.C60_cylindrical_false"
   ],
   "note": "Axes and origin in the system of reference for the three commands (C60_axes), positions of the three points in the global system for CORD2R whose reference is global or reached through Cartesian systems (C60_points_partial). Aligned points give axes that are not numbers, with no report (C60_aligned). Refuted when the reference is cylindrical: the coordinates are subtracted as if they were Cartesian (C60_cylindrical_false). Exact real arithmetic."
  },
  {
   "property": "C61",
   "status": "partial",
   "theorems": [
    "Vega.EulerSpec.C61_exact",
    "Vega.EulerSpec.C61_near",
    "Vega.EulerSpec.C61_global_partial",
    "Vega.EulerSpec.C61_relative_partial",
    "Vega.EulerSpec.C61_cylindrical_partial",
    "Vega.EulerSpec.C61_nested_false",
    "Vega.EulerSpec.C61_cylindrical_false"
   ],
   "note": "Angles of any direct orthonormal axes: exact unless the x axis is within 1e-8 of the vertical (C61_exact), and then within 2e-8 on each component (C61_near). Systems given in the global one (C61_global_partial), relative to a built Cartesian system (C61_relative_partial), local base of a cylindrical system (C61_cylindrical_partial). Refuted: the axes of a system given in another one are turned twice (C61_nested_false); the local base of a cylindrical system given in another one is taken for global directions (C61_cylindrical_false). Exact real arithmetic, sign of zeros left out."
  },
  {
   "property": "C62",
   "status": "partial",
   "theorems": [
    "Vega.NodalForceSpec.C62_global",
    "Vega.NodalForceSpec.C62_cartesian",
    "Vega.NodalForceSpec.C62_cylindrical_partial",
    "Vega.NodalForceSpec.C62_base_unique",
    "Vega.NodalForceSpec.C62_refused",
    "Vega.NodalForceSpec.C62_nested_false",
    "Vega.NodalForceSpec.C62_history_false"
   ],
   "note": "No system, Cartesian systems to any depth (C62_cartesian), cylindrical systems given in the global one at any node off the axis, for any state left by earlier conversions (C62_cylindrical_partial, with C62_base_unique); spherical systems, unknown systems and nodes not loaded are refused (C62_refused). Refuted: a cylindrical system given in another one compares global coordinates with local ones (C62_nested_false); at the origin of a cylindrical system the result depends on the node converted before (C62_history_false). Exact real arithmetic."
  },
  {
   "property": "C63",
   "status": "partial",
   "theorems": [
    "Vega.SectionSpec.C63_round",
    "Vega.SectionSpec.C63_bar_partial",
    "Vega.SectionSpec.C63_bar_false",
    "Vega.SectionSpec.C63_high_false"
   ],
   "note": "Discs and rings: equal to the polar moment (C63_round). Rectangles at least as wide as high: positive and at most the polar moment (C63_bar_partial). Refuted for every rectangle higher than wide (C63_high_false): the formula requires the longer side first, and the code takes the height as the shorter one (C63_bar_false). Exact arithmetic instead of doubles."
  },
  {
   "property": "C64",
   "status": "partial",
   "theorems": [
    "Vega.SectionSpec.C64_partial",
    "Vega.SectionSpec.C64_refused",
    "Vega.SectionSpec.C64_tube_false"
   ],
   "note": "Rectangles, discs and I sections with equal flanges (C64_partial); I sections with different flanges are refused (C64_refused). Refuted for every tube: the radius written is the inner one (C64_tube_false). Areas and moments below the writer's epsilon are replaced by it, as the theorem states. Exact arithmetic instead of doubles."
  },
  {
   "property": "C65",
   "status": "partial",
   "theorems": [
    "Vega.CompositeSpec.C65_given",
    "Vega.CompositeSpec.C65_first",
    "Vega.CompositeSpec.C65_blank_partial",
    "Vega.CompositeSpec.C65_material_false",
    "Vega.CompositeSpec.C65_angle_false",
    "Vega.CompositeSpec.C65_z0_false"
   ],
   "note": "Given values are kept in order (C65_given), so are the first ply and a given offset (C65_first); blanks mean what they should when the first angle is zero and no later ply gives another material or thickness (C65_blank_partial). Refuted: blanks repeat the first ply, not the last one (C65_material_false), a blank angle repeats the angle of the first ply (C65_angle_false), a blank Z0 becomes plus half the thickness on every card (C65_z0_false)."
  },
  {
   "property": "C66",
   "status": "partial",
   "theorems": [
    "Vega.CompositeSpec.C66_cells",
    "Vega.CompositeSpec.C66_partial",
    "Vega.CompositeSpec.C66_rounding_false",
    "Vega.CompositeSpec.C66_small_false",
    "Vega.CompositeSpec.C66_property_false"
   ],
   "note": "No cell lost or repeated, for all models (C66_cells); offsets and properties right when cells with the same rounded sixth power of their offset belong to the same property and offset (C66_partial). Refuted otherwise: offsets below 0.89 all round to one key, so every shell with different offsets up to 4/5 is wrong (C66_small_false, C66_rounding_false), and the map is shared by all shells, so cells of a second shell move to the first (C66_property_false)."
  },
  {
   "property": "C67",
   "status": "partial",
   "theorems": [
    "Vega.CompositeSpec.C67_partial",
    "Vega.CompositeSpec.C67_others",
    "Vega.CompositeSpec.C67_equal",
    "Vega.CompositeSpec.C67_succeeds",
    "Vega.CompositeSpec.C67_density_false",
    "Vega.CompositeSpec.C67_expansion_false"
   ],
   "note": "Thickness, angle and stiffness for all plies, density without mass multiplier (C67_partial), other materials unchanged (C67_others), equal materials replaced by one and different ones by different ones (C67_equal), success (C67_succeeds). Refuted: with a mass multiplier the density is multiplied twice (C67_density_false); thermal expansion is always lost (C67_expansion_false). Layers shared by several composites are not represented."
  },
  {
   "property": "C68",
   "status": "partial",
   "theorems": [
    "Vega.DiscreteSpec.C68_point",
    "Vega.DiscreteSpec.C68_point_unsymmetric",
    "Vega.DiscreteSpec.C68_point_symmetric_partial",
    "Vega.DiscreteSpec.C68_segment_partial",
    "Vega.DiscreteSpec.C68_segment_diagonal_false",
    "Vega.DiscreteSpec.C68_segment_unsymmetric_false",
    "Vega.DiscreteSpec.C68_structural",
    "Vega.DiscreteSpec.C68_structural_mass_false",
    "Vega.DiscreteSpec.C68_structural_symmetric_false"
   ],
   "note": "Points of symmetric and diagonal type and unsymmetric points (C68_point, C68_point_unsymmetric), full points that are exactly symmetric (C68_point_symmetric_partial), symmetric segments that are not diagonal (C68_segment_partial), structural segments of diagonal type (C68_structural). Refuted: every segment reported diagonal or unsymmetric is written with a keyword that does not go with its values (C68_segment_diagonal_false, C68_segment_unsymmetric_false); structural segments of symmetric type are written with wrong signs or without their off-diagonal terms (C68_structural_symmetric_false); their mass throws (C68_structural_mass_false). The meaning of the keywords is that of AFFE_CARA_ELEM as generally known; the manual of Code_Aster was not at hand to check it. The printing of the numbers is not modelled."
  },
  {
   "property": "C69",
   "status": "partial",
   "theorems": [
    "Vega.DiscreteSpec.C69_partial",
    "Vega.DiscreteSpec.C69_false"
   ],
   "note": "What is written are springs in all three or six directions (C69_partial); refuted for every spring of non zero stiffness (C69_false)."
  },
  {
   "property": "C70",
   "status": "partial",
   "theorems": [
    "Vega.SpringSpec.C70_partial",
    "Vega.SpringSpec.C70_unchanged",
    "Vega.SpringSpec.C70_two_false",
    "Vega.SpringSpec.C70_mass_false"
   ],
   "note": "When one set needs splitting, its mass is null and the generated names are free (C70_partial); nothing changes when no set does (C70_unchanged). Refuted: two sets that need splitting always end the translation, because all sets have the same name (C70_two_false); masses are lost (C70_mass_false)."
  },
  {
   "property": "C71",
   "status": "proved",
   "theorems": [
    "Vega.SystusMatrixSpec.C71_matrix"
   ],
   "note": "Every symmetric direct matrix, any number n of degrees of freedom by node. Coefficients beyond n are refused (C72_refused). Numbers are exact; the formatting of doubles is not modelled."
  },
  {
   "property": "C72",
   "status": "partial",
   "theorems": [
    "Vega.SystusMatrixSpec.C72_collision_false",
    "Vega.SystusMatrixSpec.C72_reference_always_false",
    "Vega.SystusMatrixSpec.C72_partial",
    "Vega.SystusMatrixSpec.C72_nodes_false",
    "Vega.SystusMatrixSpec.C72_refused",
    "Vega.SystusMatrixSpec.C72_reference_partial",
    "Vega.SystusMatrixSpec.C72_reference_false"
   ],
   "note": "At most nine nodes, the default of the translator (C72_partial), and at most 99 tables (C72_reference_partial); refusal of missing degrees of freedom (C72_refused). Refuted beyond: C72_nodes_false, C72_reference_false, and in general C72_collision_false (ranks i, j + 10 and i + 1, j share their codes in every matrix), C72_reference_always_false."
  },
  {
   "property": "C73",
   "status": "partial",
   "theorems": [
    "Vega.DirectAsterSpec.C73_partial",
    "Vega.DirectAsterSpec.C73_chain_false",
    "Vega.DirectAsterSpec.C73_shared_false"
   ],
   "note": "C73_partial holds when no node is coupled to two others and coefficients are null or above the tolerance. C73_chain_false: in a chain of three nodes a coefficient is halved, because every block is divided by the number of segments of the first node of the pair. C73_shared_false gives the value for every matrix: between two coupled nodes, the coefficient divided by the number of nodes coupled to the first one. One direct matrix in the model; floating point is exact."
  },
  {
   "property": "C74",
   "status": "partial",
   "theorems": [
    "Vega.DirectAsterSpec.C74_partial",
    "Vega.DirectAsterSpec.C74_translations_false",
    "Vega.DirectAsterSpec.C74_rotations_false"
   ],
   "note": "C74_partial: degrees of freedom of other elements or named by constraints are never blocked. C74_translations_false: the set of required degrees of freedom is filled in a copy, so every translation of a node of the matrix that nothing else names is blocked, even with coefficients. C74_rotations_false: a segment is asked for rotations before it is filled, so its unused rotations are not blocked."
  },
  {
   "property": "C75",
   "status": "partial",
   "theorems": [
    "Vega.CliSpec.C75_aster",
    "Vega.CliSpec.C75_syntax_false",
    "Vega.CliSpec.C75_systus",
    "Vega.CliSpec.C75_topaze_partial",
    "Vega.CliSpec.C75_topaze_false"
   ],
   "note": "C75_aster, C75_systus are equivalences; C75_topaze_partial needs a data file. C75_syntax_false: the test for the exit code 4 is made on the status of system, where the code is in the second byte. C75_topaze_false: without data file the exit code is read uninitialised. The file system is a parameter."
  },
  {
   "property": "C76",
   "status": "partial",
   "theorems": [
    "Vega.CliSpec.C76_partial",
    "Vega.CliSpec.C76_mesh_strict_false"
   ],
   "note": "C76_partial. C76_mesh_strict_false: the variable that records mesh-at-least is never set, so it is accepted together with strict."
  },
  {
   "property": "C77",
   "status": "partial",
   "theorems": [
    "Vega.CliSpec.C77_partial",
    "Vega.CliSpec.C77_crash_false",
    "Vega.CliSpec.C77_tokenizer_false",
    "Vega.CliSpec.C77_parser"
   ],
   "note": "C77_partial and C77_parser hold below the log level DEBUG. C77_crash_false: refused options and unknown output formats are thrown again because the level is TRACE until the parameters are read. C77_tokenizer_false: the tokenizer calls exit(2), the status of a missing input file."
  },
  {
   "property": "C78",
   "status": "partial",
   "theorems": [
    "Vega.NastranWrite.C78_card_partial",
    "Vega.NastranWrite.C78_file_partial",
    "Vega.NastranWrite.C78_wide_integer_false",
    "Vega.NastranWrite.C78_negative_integer_false",
    "Vega.NastranWrite.C78_long_format_false"
   ],
   "note": "C78_card_partial, C78_file_partial: values that fit in eight columns, short cards, fewer than ten million continuation lines. C78_wide_integer_false: a number of nine digits shifts the columns. C78_negative_integer_false: blanks are put after the sign, and the reader refuses the field. C78_long_format_false: continuations of long cards are read as short. Reals are compared up to the precision of C79."
  },
  {
   "property": "C79",
   "status": "partial",
   "theorems": [
    "Vega.NastranWrite.C79_real_partial",
    "Vega.NastranWrite.C79_usual_partial",
    "Vega.NastranWrite.C79_short_partial",
    "Vega.NastranWrite.C79_exact_false",
    "Vega.NastranWrite.C79_small_false"
   ],
   "note": "C79_real_partial, C79_usual_partial, in exact arithmetic. C79_short_partial: numbers with no more digits than the field keeps come back exactly (also in the later round trips C80 to C84). C79_small_false: numbers under the tolerance are written as zero. C79_exact_false: numbers that eight columns hold exactly are still rounded to five digits."
  },
  {
   "property": "C80",
   "status": "partial",
   "theorems": [
    "Vega.NastranWrite.C80_solid_partial",
    "Vega.NastranWrite.C80_solid_same_card_partial",
    "Vega.NastranWrite.C80_edges",
    "Vega.NastranWrite.C80_shell_partial",
    "Vega.NastranWrite.C80_shell_false",
    "Vega.NastranWrite.C80_shell_files_false",
    "Vega.NastranWrite.C80_quad8_offset_false",
    "Vega.NastranWrite.C80_unsupported_false"
   ],
   "note": "C80_solid_partial, C80_solid_same_card_partial: solids come back unchanged. C80_edges: middle nodes of solids stay on their edges. C80_shell_partial: shells come back with the same number, property and set of nodes; C80_shell_false, C80_shell_files_false: but their nodes come back in reversed order, so that the normal is reversed. C80_quad8_offset_false: the offset of an eight-node shell is lost. C80_unsupported_false: a cell of an unsupported type is written with a blank keyword and is read as the continuation of the card before. The Cosmic dialect is not modelled."
  },
  {
   "property": "C81",
   "status": "partial",
   "theorems": [
    "Vega.Systus.C81_nodes_partial",
    "Vega.Systus.C81_edges",
    "Vega.Systus.C81_sides",
    "Vega.Systus.C81_pyramid_false",
    "Vega.Systus.C81_lost_false"
   ],
   "note": "C81_nodes_partial, C81_edges, C81_sides for the supported types; the numbering of edges in Systus is written in the specification from the alternation of corners and middles that the table of the code shows. C81_pyramid_false: pyramids announce five nodes but list eight. C81_lost_false: cells of types absent from the table are left out with only a warning. Material, load and orientation fields are not modelled."
  },
  {
   "property": "C82",
   "status": "partial",
   "theorems": [
    "Vega.NastranWrite.C82_read_partial",
    "Vega.NastranWrite.C82_write_partial",
    "Vega.NastranWrite.C82_more_false",
    "Vega.NastranWrite.C82_set_false"
   ],
   "note": "C82_read_partial: the reader is right for any number of terms laid out as in the manual. C82_write_partial: relations of at most four terms come back. C82_more_false: no relation of more than four terms does, because the writer does not count the blank fields; the card is refused, or in tolerant mode the first four terms are kept. C82_set_false: the card carries the internal number of the set but the subcase the original one. The right-hand side of the relation is not written. Node positions are identified with node numbers."
  },
  {
   "property": "C83",
   "status": "partial",
   "theorems": [
    "Vega.NastranWrite.C83_rbar_partial",
    "Vega.NastranWrite.C83_rbar_both",
    "Vega.NastranWrite.C83_rigid_partial",
    "Vega.NastranWrite.C83_quasi_partial",
    "Vega.NastranWrite.C83_number_false",
    "Vega.NastranWrite.C83_bar_false",
    "Vega.NastranWrite.C83_components",
    "Vega.NastranWrite.C83_rbar1_partial",
    "Vega.NastranWrite.C83_end_false",
    "Vega.NastranWrite.C83_mean_partial",
    "Vega.NastranWrite.C83_mean_false",
    "Vega.NastranWrite.C83_mean_next_false"
   ],
   "note": "C83_rigid_partial, C83_quasi_partial: RBE2 comes back with master, slaves and degrees of freedom. C83_mean_partial: RBE3 comes back when the number of its master equals its position. C83_mean_false, C83_mean_next_false: otherwise the card names another node (in a mesh numbered 1..k, the next one) or the writer reads outside the mesh. C83_number_false: all quasi rigid connections of a set get the number of the set. C83_bar_false: connections without master (RBAR1) are never written, an exception stops the translation. C83_end_false: RBAR with CNB is read with the wrong end as master. The set to which the connection belongs is not represented; empty sets of degrees of freedom are excluded (C02_empty_reads_as_DX). C83_rbar_partial: RBAR with the codes of the first end, or none; C83_rbar_both: refused with codes at both ends. C83_components: a node of a quasi rigid connection has no other components than the connection."
  },
  {
   "property": "C84",
   "status": "partial",
   "theorems": [
    "Vega.NastranWrite.C84_blank_partial",
    "Vega.NastranWrite.C84_read_partial",
    "Vega.NastranWrite.C84_write_partial",
    "Vega.NastranWrite.C84_value_false"
   ],
   "note": "C84_read_partial: SPC is read triple by triple, whatever their number. C84_write_partial: each node comes back with its set and its blocked components, imposed displacement 0. C84_value_false: the value imposed has no influence on the file, so a non-zero imposed displacement becomes a clamped node. Constraints without any blocked component are excluded (their card, code 0, is read as DX). SPCADD and the group of nodes made by SPC are not represented. C84_blank_partial: blank components mean all of them."
  },
  {
   "property": "C85",
   "status": "partial",
   "theorems": [
    "Vega.NastranWrite.C85_force_read_partial",
    "Vega.NastranWrite.C85_force_partial",
    "Vega.NastranWrite.C85_moment_false",
    "Vega.NastranWrite.C85_moment_read_partial",
    "Vega.NastranWrite.C85_moment_blank_false",
    "Vega.NastranWrite.C85_gravity_partial",
    "Vega.NastranWrite.C85_grav_system_false"
   ],
   "note": "C85_force_read_partial, C85_moment_read_partial: cards with all fields are read as given. C85_force_partial, C85_gravity_partial: what is written is read back up to the precision of eight columns (the factor 1.0 exactly). C85_moment_false: moments are never written: exception in strict mode, silently lost (a message) otherwise. C85_moment_blank_false: a blank component of MOMENT is read as minus the largest double times the factor. C85_grav_system_false: the coordinate system of GRAV has no influence. Exact arithmetic; products that overflow are not represented. The change of the force to the global system is the subject of C62 and taken as given here."
  },
  {
   "property": "C86",
   "status": "partial",
   "theorems": [
    "Vega.NastranWrite.C86_read_partial",
    "Vega.NastranWrite.C86_surface_partial",
    "Vega.NastranWrite.C86_plain_false",
    "Vega.NastranWrite.C86_face_nodes_partial",
    "Vega.NastranWrite.C86_shell_partial",
    "Vega.NastranWrite.C86_thru_partial",
    "Vega.NastranWrite.C86_corners_false",
    "Vega.NastranWrite.C86_system_false",
    "Vega.NastranWrite.C86_nodes_partial"
   ],
   "note": "C86_read_partial, C86_thru_partial: PLOAD4 with or without nodes, direction, THRU. C86_surface_partial, C86_face_nodes_partial, C86_shell_partial, C86_nodes_partial: written pressures are read back, signs included, up to the precision of eight columns. C86_plain_false: a force on a whole cell, which the reader does make, cannot be written: exception in strict mode, a null pointer is followed otherwise. C86_corners_false: pressures at the other corners have no influence. C86_system_false: the coordinate system is dismissed, and a normal pressure with a coordinate system becomes a force of length zero. Exact arithmetic; the length of the force is a parameter with its square given."
  },
  {
   "property": "C87",
   "status": "partial",
   "theorems": [
    "Vega.NastranWrite.C87_read_partial",
    "Vega.NastranWrite.C87_write_partial",
    "Vega.NastranWrite.C87_start_false",
    "Vega.NastranWrite.C87_length_false",
    "Vega.NastranWrite.C87_point_partial"
   ],
   "note": "C87_read_partial, C87_write_partial: loads by fractions from the beginning of the beam come back. C87_point_partial: concentrated loads are refused. C87_start_false: a load that starts further on is written as a ramp just before its start; the load between its two positions is lost. C87_length_false: loads given by lengths are written as fractions. Exact arithmetic."
  },
  {
   "property": "C88",
   "status": "proved",
   "theorems": [
    "Vega.C88_last",
    "Vega.C88_position",
    "Vega.C88_distinct",
    "Vega.C88_global",
    "Vega.NastranWrite.C88_global_position"
   ],
   "note": "C88_last, C88_position, C88_distinct, C88_global. All histories of definitions and uses; the coordinate systems themselves are arbitrary values. C88_global_position: the global system has position 0 and is not stored."
  },
  {
   "property": "C89",
   "status": "partial",
   "theorems": [
    "Vega.NastranWrite.C89_read_partial",
    "Vega.NastranWrite.C89_write_partial",
    "Vega.NastranWrite.C89_moved_false",
    "Vega.NastranWrite.C89_grdset_false",
    "Vega.NastranWrite.C89_grdset_partial",
    "Vega.NastranWrite.C89_order_false",
    "Vega.NastranWrite.C89_second_grdset"
   ],
   "note": "C89_read_partial: nodes are where their card says, whatever the order of nodes and coordinate systems. C89_write_partial: nodes in the global system come back. C89_moved_false: nodes in another system are written with local coordinates but without the system, so they come back elsewhere. C89_grdset_false: GRDSET stores the internal position of its coordinate system, which GRID takes for the number of one. C89_grdset_partial: correct when number and position coincide. C89_order_false: GRDSET does not apply to nodes before it. Exact arithmetic; precision of eight columns. C89_second_grdset: a second GRDSET."
  },
  {
   "property": "C90",
   "status": "partial",
   "theorems": [
    "Vega.NastranWrite.C90_read_partial",
    "Vega.NastranWrite.C90_write_partial",
    "Vega.NastranWrite.C90_other_false"
   ],
   "note": "C90_read_partial: every field reaches the material. C90_write_partial: materials whose constants are ordinary numbers come back. C90_other_false: a material without elastic nature is written as a MAT1 without fields, which is read as one with zero stiffness and density. Exact arithmetic; precision of eight columns."
  },
  {
   "property": "C91",
   "status": "partial",
   "theorems": [
    "Vega.NastranWrite.C91_shear_false",
    "Vega.NastranWrite.C91_shell_read_partial",
    "Vega.NastranWrite.C91_shell_partial",
    "Vega.NastranWrite.C91_shell_mass_false",
    "Vega.NastranWrite.C91_solid_read_partial",
    "Vega.NastranWrite.C91_solid_partial",
    "Vega.NastranWrite.C91_pihex_false",
    "Vega.NastranWrite.C91_bar_read_partial",
    "Vega.NastranWrite.C91_beam_partial",
    "Vega.NastranWrite.C91_beam_shear_false",
    "Vega.NastranWrite.C91_cosmic_false"
   ],
   "note": "C91_shell_read_partial, C91_bar_read_partial, C91_solid_read_partial: cards are read as given (materials 2 to 4 and the ratios of PSHELL have no influence). C91_shell_partial, C91_solid_partial, C91_beam_partial: what is written is read back. C91_shell_mass_false, C91_beam_shear_false: mass per area or length, shear factors and the kind of beam are lost. C91_cosmic_false: PBAR for Cosmic Nastran has the fields of PBEAM, so the torsional constant is read as a mass. Not modelled: tapered PBEAM sections beyond passing over their fields (rods are C140). C91_pihex_false: PIHEX, the card of solids for Cosmic Nastran, is read back as a property of shells. Exact arithmetic; precision of eight columns. C91_shear_false: all the fields of PBAR; the area factor of plane 1 (shear along y) is read as the one along z, and that of plane 2 as the one along y."
  },
  {
   "property": "C92",
   "status": "partial",
   "theorems": [
    "Vega.NastranWrite.C92_read_partial",
    "Vega.NastranWrite.C92_products_false",
    "Vega.NastranWrite.C92_write_partial",
    "Vega.NastranWrite.C92_inertia_false",
    "Vega.NastranWrite.C92_aster_partial",
    "Vega.NastranWrite.C92_aster_offset_false",
    "Vega.NastranWrite.C92_multiplier_false",
    "Vega.NastranWrite.C92_systus_partial",
    "Vega.NastranWrite.C92_systus_strict_partial",
    "Vega.NastranWrite.C92_systus_offset_false",
    "Vega.NastranWrite.C92_matrix_partial",
    "Vega.NastranWrite.C92_row_false",
    "Vega.NastranWrite.C92_blank_false",
    "Vega.NastranWrite.C92_diagonal_false",
    "Vega.NastranWrite.C92_aster_inertia_partial",
    "Vega.NastranWrite.C92_absolute_false",
    "Vega.NastranWrite.C92_point_strict"
   ],
   "note": "C92_read_partial: CONM2 is read as given except for two products of inertia. C92_products_false: I31 and I32 are exchanged (the arguments of the constructor are in another order). C92_write_partial, C92_inertia_false: the mass is written, its inertia and offset are not. C92_aster_partial: masses with inertia reach Code_Aster; C92_aster_offset_false: the offset of masses without inertia does not; C92_multiplier_false: the multiplier is applied to the mass and not to the inertia. C92_systus_partial, C92_systus_strict_partial, C92_systus_offset_false. CONM1: C92_matrix_partial (first five rows), C92_row_false (a card with its sixth row is refused), C92_blank_false (nothing is read after a blank entry), C92_diagonal_false (the writer leaves out the diagonal, so a diagonal mass matrix comes back as zero). Exact arithmetic; precision of eight columns. C92_aster_inertia_partial: masses with any inertia term, or with neither inertia nor offset, reach Code_Aster. C92_absolute_false: with CID = -1 the position of the mass is read as an offset. C92_point_strict: points with stiffness or damping are refused exactly in strict mode."
  },
  {
   "property": "C93",
   "status": "partial",
   "theorems": [
    "Vega.NastranWrite.C93_read_partial",
    "Vega.NastranWrite.C93_write_partial",
    "Vega.NastranWrite.C93_layout_false",
    "Vega.NastranWrite.C93_short_false"
   ],
   "note": "C93_read_partial: any rows in any order (GE and RCV have no influence: the code warns that they are not supported). C93_write_partial: the program reads its own card back. C93_layout_false: the written card has a number where the manual has the flag, so no other program reads it. C93_short_false: a row K with missing fields at the end of the card is an error. Exact arithmetic; precision of eight columns."
  },
  {
   "property": "C94",
   "status": "partial",
   "theorems": [
    "Vega.MedSpec.C94_nodes",
    "Vega.MedSpec.C94_cells",
    "Vega.MedSpec.C94_group_names_partial",
    "Vega.MedSpec.C94_long_names_false",
    "Vega.MedSpec.C94_family_names_partial",
    "Vega.MedSpec.C94_family_names_false",
    "Vega.MedSpec.C94_family_name_length_false",
    "Vega.MedSpec.C94_connectivity",
    "Vega.MedSpec.C94_cell_numbers",
    "Vega.MedSpec.C94_names"
   ],
   "note": "C94_nodes, C94_cells: the families, for any groups. C94_connectivity, C94_cell_numbers, C94_names: cells, numbers and names. C94_group_names_partial: names up to 80 characters; C94_long_names_false: longer names are cut and may coincide. C94_family_names_partial: names of families are distinct if group names contain no underscore and do not look like names made up by the writer; C94_family_names_false: groups A, B and A_B give two families with the same name; C94_family_name_length_false: names of families may exceed the 64 characters of MED. The MED library itself is not modelled: its input is."
  },
  {
   "property": "C95",
   "status": "partial",
   "theorems": [
    "Vega.F06.C95_frequencies_partial",
    "Vega.F06.C95_complex_partial",
    "Vega.F06.C95_second_table_false",
    "Vega.F06.C95_stale_step_false",
    "Vega.F06.C95_scalar_false",
    "Vega.F06.C95_abbreviated_false",
    "Vega.F06.C95_seven_words_false",
    "Vega.F06.C95_no_analysis_false",
    "Vega.F06.C95_pages_partial",
    "Vega.F06.C95_unknown_false",
    "Vega.F06.C95_negative",
    "Vega.F06.C95_blank_step",
    "Vega.F06.C95_stresses_partial"
   ],
   "note": "C95_pages_partial: displacements, for whole files. C95_frequencies_partial, C95_complex_partial, C95_stresses_partial: the other tables, from their title to their end. C95_unknown_false: a subcase that the model does not have is undefined behaviour (the analysis is used before it is compared with null). C95_second_table_false: a second table under the same subcase goes to every analysis. C95_stale_step_false: a page that begins with its subcase keeps the load step of the page before. C95_scalar_false: the row of a scalar point ends the table and the rest of it is lost, even in strict mode. C95_abbreviated_false: 1.5-100 is read as 1.5. C95_seven_words_false: a line of page of seven words after frequencies is an error. C95_no_analysis_false: complex displacements in a model without analysis are undefined behaviour. Missing: rounding of numbers, the groups made for Code_Aster."
  },
  {
   "property": "C96",
   "status": "partial",
   "theorems": [
    "Vega.F06.C96_ends_partial",
    "Vega.F06.C96_cut_false"
   ],
   "note": "C96_ends_partial: every file ends if it ends with a newline, or its last line is not the first line of a page. C96_cut_false: a file cut, without newline, after the first line of a page in a table of stresses is read for ever (whatever the number of turns allowed). readLine_eq justifies describing a file by its lines that are not blank."
  },
  {
   "property": "C97",
   "status": "partial",
   "theorems": [
    "Vega.Case.C97_numbers",
    "Vega.Case.C97_never_selected_false",
    "Vega.Case.C97_forces_false",
    "Vega.Case.C97_complex_false",
    "Vega.Case.C97_writing_false",
    "Vega.Case.C97_subcases_partial",
    "Vega.Case.C97_single_partial"
   ],
   "note": "C97_subcases_partial, C97_single_partial: whole files, for SOL 101, 103 and 106. False in parts: C97_never_selected_false (for every file: BCONTACT, STRESS and OFREQUENCY are compared over 4 characters with longer words and never selected); C97_forces_false (SPCFORCES and MPCFORCES select supports); C97_complex_false (SOL 110 takes CMETHOD for METHOD); C97_writing_false (solutions in small letters give no analysis, a tab after a command above the subcases reads beyond a vector, and by the standard every selection without options erases the end of a vector). Inside subcases values may have several words (titles, labels). Missing: commands with options, buckling and frequency analyses, LOADSTEP comments, files with matrices. C97_numbers: for every file, no two analyses of a type and no two lists that are read have the same number; a number that comes again ends the program, so the partial theorems are for subcases with different numbers."
  },
  {
   "property": "C98",
   "status": "partial",
   "theorems": [
    "Vega.Case.C98_combination_partial",
    "Vega.Case.C98_second_false",
    "Vega.Case.C98_missing_false",
    "Vega.Case.C98_texts_false"
   ],
   "note": "C98_combination_partial: the coefficients in the places 1, 3, 5, … C98_second_false: for every combination, the subcases in the places 2, 4, … have no coefficient (`i++` in the body and in the loop). C98_missing_false: without SUBSEQ the end of the map is followed. C98_texts_false: whole files; more coefficients than analyses are undefined behaviour, spaces after commas end the program. The combination is assumed to have a number no analysis has."
  },
  {
   "property": "C99",
   "status": "partial",
   "theorems": [
    "Vega.Case.C99_sets_partial",
    "Vega.Case.C99_subcases_partial",
    "Vega.Case.C99_comma_false",
    "Vega.Case.C99_largest_false",
    "Vega.Case.C99_forms_false",
    "Vega.Case.C99_number_again_false",
    "Vega.Case.C99_subcases_false"
   ],
   "note": "C99_sets_partial, C99_subcases_partial: whole files with SET commands above the subcases, without and with subcases. False in parts: C99_comma_false (a list that ends with a comma at the end of the file is read for ever, whatever the number of turns), C99_largest_false (a range up to the largest int overflows), C99_forms_false (EXCEPT leaves the list out, BY ends the program, without an equal sign all numbers before the last space are lost). Missing: ALL, lists in subcases, order and repetitions (kept in a std::set). C99_number_again_false: a SET number that comes again ends the program; C99_subcases_false: so do lists with the same number in two subcases."
  },
  {
   "property": "C100",
   "status": "partial",
   "theorems": [
    "Vega.Case.C100_read_back_partial",
    "Vega.Case.C100_no_analysis_false",
    "Vega.Case.C100_missing_set_false",
    "Vega.Case.C100_two_sets_false",
    "Vega.Case.C100_common_set_false",
    "Vega.Case.C100_kinds_false",
    "Vega.Case.C100_mixed_false",
    "Vega.Case.C100_outputs_false",
    "Vega.Case.C100_empty_group_false"
   ],
   "note": "C100_read_back_partial: every number of linear static analyses with at most one set of each type (LOAD, DLOAD, LOADSET, SPC, MPC) and one displacement output with one group, groups of any size that are not empty, in both dialects. False otherwise: C100_no_analysis_false and C100_missing_set_false (for every model: undefined behaviour without analyses, or with a set of constraints that is not found), C100_two_sets_false, C100_common_set_false (`ALL=` and `CONTACT=` are not read), C100_kinds_false (modal and nonlinear analyses are written without METHOD and NLPARM and not read back), C100_mixed_false (all analyses take the kind of the first one), C100_outputs_false, C100_empty_group_false. Labels are not written. Missing: von Mises outputs. The analyses and the groups are assumed to have different numbers."
  },
  {
   "property": "C101",
   "status": "partial",
   "theorems": [
    "Vega.Case.C101_ends_partial",
    "Vega.Case.C101_comma_false"
   ],
   "note": "C101_ends_partial: every file whose last text (without comments and blanks) does not end with a comma. C101_comma_false (and C99_comma_false, for any number of turns): a list that ends with a comma at the end of the file is read for ever. Not covered: the bulk section, to which the program goes on afterwards."
  },
  {
   "property": "C102",
   "status": "partial",
   "theorems": [
    "Vega.AsterSpec.C102_place",
    "Vega.AsterSpec.C102_constraints_partial",
    "Vega.AsterSpec.C102_function_false",
    "Vega.AsterSpec.C102_small_false"
   ],
   "note": "C102_place: the nodes named by what is written are those of the container, for every container whose groups exist. C102_constraints_partial: the fields that satisfy what is written are those that satisfy the constraints, for every set whose values are numbers and whose coefficients are 0 or above the tolerance, with the physical relations of LIAISON_SOLIDE, LIAISON_RBE3 and LIAISON_MAIL taken as parameters. C102_function_false: a single point constraint with a function writes a message into the command. C102_small_false: coefficients below the tolerance are left out. Contacts are C103."
  },
  {
   "property": "C103",
   "status": "partial",
   "theorems": [
    "Vega.AsterSpec.C103_gaps_partial",
    "Vega.AsterSpec.C103_along_z_false",
    "Vega.AsterSpec.C103_two_properties_false",
    "Vega.AsterSpec.C103_same_node_false",
    "Vega.AsterSpec.C103_second_node_false"
   ],
   "note": "C103_gaps_partial: for cards of one property, without two gaps of the same first node, with directions whose z component comes with a y component, and with the second node held. Each restriction is needed: C103_along_z_false (for every set and node: a gap along z uses a constant that is only defined when the y component is not zero, so no field satisfies the file), C103_two_properties_false (constants of the second property take the names of the first, whose opening is lost), C103_same_node_false (a second gap of a node replaces the first), C103_second_node_false (the displacement of the second node is ignored). Exact arithmetic in place of floating point; the directions are parameters, so that coincident nodes (NaN in the program) are not covered."
  },
  {
   "property": "C104",
   "status": "partial",
   "theorems": [
    "Vega.AsterSpec.C104_loads_partial",
    "Vega.AsterSpec.C104_overload_false",
    "Vega.AsterSpec.C104_mixed_false",
    "Vega.AsterSpec.C104_geometry_false",
    "Vega.AsterSpec.C104_constant_false",
    "Vega.AsterSpec.C104_temperature_false"
   ],
   "note": "C104_loads_partial: for every set without two loads of a kind on one cell, functions and numbers not together, forces along lines on beams and given by functions, gravities of length other than 0. What is read agrees with the loads exactly, for nodal and surface forces up to the tolerance of the comparison with 0. Each restriction is needed: C104_overload_false (of two pressures on a cell the last one counts, for every value of the first other than 0), C104_mixed_false (any set with a function and a rotation), C104_geometry_false (forces along lines that are not beams are not written), C104_constant_false (a constant force along a line is written without its value), C104_temperature_false (temperatures are not written). Exact arithmetic in place of floating point."
  },
  {
   "property": "C105",
   "status": "partial",
   "theorems": [
    "Vega.Aster.C105_readable",
    "Vega.Aster.C105_complex_false",
    "Vega.Aster.C105_reuse_false",
    "Vega.Aster.C105_interpolate_false",
    "Vega.Aster.C105_damping_false",
    "Vega.Aster.C105_spread_false",
    "Vega.Aster.C105_outputs_false",
    "Vega.Aster.C105_loads_false",
    "Vega.Aster.C105_mixed_false",
    "Vega.Aster.C105_contacts_false",
    "Vega.Aster.C105_assembly_false",
    "Vega.Aster.C105_combination_false",
    "Vega.Aster.C105_order_false",
    "Vega.Aster.C105_elements_false",
    "Vega.Aster.C105_reused",
    "Vega.Aster.C105_length_partial",
    "Vega.Aster.C105_length_false",
    "Vega.Aster.C105_names_partial",
    "Vega.Aster.C105_texts"
   ],
   "note": "C105_readable: for every consistent model with element sets, the file is read to its end if and only if each analysis is Fine with respect to the analyses before it; an exact characterisation, of which C105_names_partial is the sufficient direction. The conditions are defects of the program, each refuted for all models that meet it: complex modal analyses (C105_complex_false: RESU never defined), responses that reuse modes of a response (C105_reuse_false: MOD is used, MO is defined), interpolated frequencies (C105_interpolate_false), damping of type G (C105_damping_false), spread frequencies whose value has another number (C105_spread_false), outputs of frequencies (C105_outputs_false: two commas), load sets with temperatures, DLOAD or empty (C105_loads_false: CHARGE= without a name), constraint sets with contacts in linear analyses (C105_mixed_false), several contact sets (C105_contacts_false), matrices with empty, contact-only or function constraint sets (C105_assembly_false), combinations without materials or before their parts (C105_combination_false, C105_order_false), models without element sets (C105_elements_false). C105_texts: different names are different texts. C105_length_partial: at most 8 characters for numbers below 1000 (100 for the second number); C105_length_false otherwise. Left out: composites, materials, functions that loads use, step ranges without increments."
  },
  {
   "property": "C106",
   "status": "partial",
   "theorems": [
    "Vega.Modes.C106_aster_partial",
    "Vega.Modes.C106_aster_number",
    "Vega.Modes.C106_aster_lower_false",
    "Vega.Modes.C106_buckling_false",
    "Vega.Modes.C106_power_false",
    "Vega.Modes.C106_systus_partial",
    "Vega.Modes.C106_systus_number_false",
    "Vega.Modes.C106_systus_version_false",
    "Vega.Modes.C106_systus_lower_false",
    "Vega.Modes.C106_systus_list_false"
   ],
   "note": "C106_aster_partial, C106_aster_number: Code_Aster computes the modes asked for if no number is given and there is an upper bound, and otherwise exactly if the lowest modes all lie in the band. C106_systus_partial: Systus from version 2017 on, with an upper bound (at most 100 modes in the band when no number is given), or with lowest modes in the band. False otherwise: C106_aster_lower_false (a number of modes makes both bounds disappear), C106_buckling_false (a band is not written for buckling; ten modes), C106_power_false (incomplete command), C106_systus_number_false (limit of 100), C106_systus_version_false (no bounds before 2017), C106_systus_lower_false, C106_systus_list_false (uninitialised variables are read outside of strict mode). What the commands compute, and what EIGRL asks for, is stated from general knowledge of the solvers; their manuals were not at hand to check it."
  },
  {
   "property": "C107",
   "status": "partial",
   "theorems": [
    "Vega.Table.C107_pairs",
    "Vega.Table.C107_endt",
    "Vega.Table.C107_tabled1",
    "Vega.Table.C107_tables1",
    "Vega.Table.C107_tabdmp1",
    "Vega.Table.C107_tabled1_free_false",
    "Vega.Table.C107_tables1_free_false",
    "Vega.Table.C107_tables1_shift_false",
    "Vega.Table.C107_flat_false",
    "Vega.Table.C107_names",
    "Vega.Table.C107_order",
    "Vega.Table.C107_twice",
    "Vega.Table.C107_values_partial",
    "Vega.Table.C107_tabled1_values_partial",
    "Vega.Table.C107_tabdmp1_values_partial",
    "Vega.Table.C107_tabdmp1_left_false",
    "Vega.Table.C107_tabdmp1_right_false",
    "Vega.Table.C107_parameter_false",
    "Vega.Table.C107_ascending_false"
   ],
   "note": "Proved: C107_pairs, C107_endt, C107_tabled1, C107_tables1, C107_tabdmp1 (reading), C107_names, C107_order, C107_twice (names in any order), C107_values_partial, C107_tabled1_values_partial, C107_tabdmp1_values_partial (values, for ascending abscissae, at least two points and a name; with logarithmic axes only between the points). False: in free format without the empty fields of the first line (C107_tabled1_free_false, C107_tables1_free_false, C107_tables1_shift_false), with the field FLAT of Optistruct (C107_flat_false), for damping tables outside of their points (C107_tabdmp1_left_false, C107_tabdmp1_right_false), for tables without a name (C107_parameter_false), with jumps or descending abscissae (C107_ascending_false). The formulas for logarithmic axes are not described; what the programs find in tables is stated from general knowledge of them; their manuals were not at hand to check it."
  },
  {
   "property": "C108",
   "status": "partial",
   "theorems": [
    "Vega.Response.C108_freq",
    "Vega.Response.C108_freq_forms",
    "Vega.Response.C108_aster_partial",
    "Vega.Response.C108_several_false",
    "Vega.Response.C108_selected",
    "Vega.Response.C108_missing_false",
    "Vega.Response.C108_small_false",
    "Vega.Response.C108_freq4_false",
    "Vega.Response.C108_freq4_number_false",
    "Vega.Response.C108_systus_partial",
    "Vega.Response.C108_systus_list_false",
    "Vega.Response.C108_crit_partial",
    "Vega.Response.C108_types_false",
    "Vega.Response.C108_aster_types_false",
    "Vega.Response.C108_first_false",
    "Vega.Response.C108_empty_false"
   ],
   "note": "Proved: C108_freq (reading), C108_selected (for every list of cards, the first one with the number that can be read is used), C108_aster_partial (one card FREQ or FREQ1), C108_systus_partial (one card FREQ1 with positive step), C108_crit_partial (constant damping of type CRIT). False: with several cards in the set (C108_several_false), without a readable card the behaviour is undefined (C108_missing_false), steps below the tolerance (C108_small_false), FREQ4 with default values (C108_freq4_false, C108_freq4_number_false), lists for Systus (C108_systus_list_false), damping of type G or Q (C108_types_false, C108_aster_types_false), damping that depends on the frequency for Systus (C108_first_false), an empty table (C108_empty_false). The frequencies of FREQ3 and FREQ4 in Code_Aster are not described; that the sweep of Systus leaves out its initial frequency is inferred from the code, which subtracts a step, not from documentation; default values of Nastran and the meaning of its damping types are stated from general knowledge; its manual was not at hand to check them."
  },
  {
   "property": "C109",
   "status": "partial",
   "theorems": [
    "Vega.Excitation.C109_phase",
    "Vega.Excitation.C109_aster_partial",
    "Vega.Excitation.C109_delay_false",
    "Vega.Excitation.C109_table_false",
    "Vega.Excitation.C109_motion_false",
    "Vega.Excitation.C109_order_false",
    "Vega.Excitation.C109_lseq_order_false",
    "Vega.Excitation.C109_lseq_false",
    "Vega.Excitation.C109_rload1_false",
    "Vega.Excitation.C109_shared_false",
    "Vega.Excitation.C109_td_false",
    "Vega.Excitation.C109_systus_modal_partial",
    "Vega.Excitation.C109_systus_empty_false",
    "Vega.Excitation.C109_systus_direct_false",
    "Vega.Excitation.C109_systus_static_false"
   ],
   "note": "Proved: C109_phase (the DPHASE is found wherever it stands), C109_aster_partial (RLOAD2 after its static loads, without LSEQ, delay and phase table). False: loads after the RLOAD2 (C109_order_false: the excitation is invalid), LOADSET selected and RLOAD2 before the LSEQ (C109_lseq_order_false: undefined behaviour), several LSEQ (C109_lseq_false), RLOAD1 with static loads (C109_rload1_false), DELAY and DPHASE with the same number (C109_shared_false), delays (C109_delay_false: opposite sign at some frequency), phase tables (C109_table_false), kind of motion in direct responses (C109_motion_false), and for Systus the amplitude in the direct method (C109_systus_direct_false) and static loads (C109_systus_static_false), an empty table (C109_systus_empty_false: undefined behaviour); RLOAD1 with TD (C109_td_false). C109_systus_modal_partial: the forces are written in the modal method. The formula of the phase is that of Nastran as generally known. Missing tables, the sets DLOAD are not modelled, the modal tables of Systus are the subject of C157; C109_delay_false and C109_table_false are about Code_Aster, where nothing but PHAS_DEG carries the phase."
  },
  {
   "property": "C110",
   "status": "partial",
   "theorems": [
    "Vega.Subcases.C110_once",
    "Vega.Subcases.C110_shared",
    "Vega.Subcases.C110_merged",
    "Vega.Subcases.C110_own",
    "Vega.Subcases.C110_mesh",
    "Vega.Subcases.C110_single",
    "Vega.Subcases.C110_user",
    "Vega.Subcases.C110_user_false",
    "Vega.Subcases.C110_unknown_false"
   ],
   "note": "Proved: C110_once, C110_shared, C110_merged, C110_own, C110_mesh (default), C110_single, C110_user (lists whose numbers are those of the analyses). False: lists of analyses with different constraints (C110_user_false: the second one is computed with the constraints of the first one), lists with unknown numbers (C110_unknown_false: the numbers of the files move). Constraints are compared by the numbers of their sets, as in the code; the numbers in the text of the option are not modelled."
  },
  {
   "property": "C111",
   "status": "partial",
   "theorems": [
    "Vega.SystusLoads.C111_numbers",
    "Vega.SystusLoads.C111_loads",
    "Vega.SystusLoads.C111_only",
    "Vega.SystusLoads.C111_constraints_partial",
    "Vega.SystusLoads.C111_left_out",
    "Vega.SystusLoads.C111_sum_partial",
    "Vega.SystusLoads.C111_gravity",
    "Vega.SystusLoads.C111_content",
    "Vega.SystusLoads.C111_lists",
    "Vega.SystusLoads.C111_rotation_false",
    "Vega.SystusLoads.C111_spcd_false",
    "Vega.SystusLoads.C111_gravity_false",
    "Vega.SystusLoads.C111_moment_false",
    "Vega.SystusLoads.C111_small_false",
    "Vega.SystusLoads.C111_line_false",
    "Vega.SystusLoads.C111_twice_false"
   ],
   "note": "Proved: C111_numbers, C111_loads, C111_only, C111_gravity, C111_content, C111_lists, C111_sum_partial (sums, option of shells, no load below the tolerance), C111_constraints_partial (constraints and imposed displacements of the analysis, at most one rotational node per constraint in the option 3D). False: constraint with rotations on two nodes in the option 3D (C111_rotation_false: the second rotational node refers to a number that is not that of the vector), imposed displacements with several sets (C111_spcd_false), two accelerations (C111_gravity_false), moments on nodes without rotational node in the option 3D (C111_moment_false), loads below the tolerance (C111_small_false), line loads that vary or have an empty table (C111_line_false), an analysis twice in a list of the user (C111_twice_false). Forces are those in the global system; dynamic excitations are the subject of C109; the vectors of coordinate systems are not modelled."
  },
  {
   "property": "C112",
   "status": "partial",
   "theorems": [
    "Vega.Params.C112_last",
    "Vega.Params.C112_last_partial",
    "Vega.Params.C112_reset_false",
    "Vega.Params.C112_large",
    "Vega.Params.C112_digits_partial",
    "Vega.Params.C112_digits_false",
    "Vega.Params.C112_masses_partial",
    "Vega.Params.C112_masses_false",
    "Vega.Params.C112_rayleigh_partial",
    "Vega.Params.C112_complex",
    "Vega.Params.C112_rayleigh_false",
    "Vega.Params.C112_structural_partial",
    "Vega.Params.C112_structural_false",
    "Vega.Params.C112_checkel",
    "Vega.Params.C112_checkel_false",
    "Vega.Params.C112_prtmaxim_false",
    "Vega.Params.C112_reported"
   ],
   "note": "Proved: C112_last (WTMASS, K6ROT, ALPHA1, ALPHA2), C112_last_partial (G, W3, LFREQ, HFREQ, LGDISP if no card has the default value), C112_large, C112_digits_partial, C112_masses_partial (isotropic and orthotropic densities, masses of points), C112_rayleigh_partial (elastic law), C112_complex, C112_structural_partial (G with W3), C112_checkel, C112_reported. False: a later card with the default value does not reset (C112_reset_false); numbers are kept with fifteen decimals, so small ones are lost or lose digits (C112_digits_false); WTMASS is not applied to hyperelastic densities, inertias of points and scalar masses (C112_masses_false); no Rayleigh damping for hyperelastic and orthotropic laws (C112_rayleigh_false); no structural damping without W3 (C112_structural_false); CHECKEL NO in debugging (C112_checkel_false); PRTMAXIM has no effect (C112_prtmaxim_false). What G and W3 mean is taken as generally known. Fields are given as read (C26, C57)."
  },
  {
   "property": "C113",
   "status": "partial",
   "theorems": [
    "Vega.Optistruct.C113_grid_partial",
    "Vega.Optistruct.C113_gap_false",
    "Vega.Optistruct.C113_elem_false",
    "Vega.Optistruct.C113_elem_partial",
    "Vega.Optistruct.C113_freq_partial",
    "Vega.Optistruct.C113_freq_word_false",
    "Vega.Optistruct.C113_surface",
    "Vega.Optistruct.C113_surface_partial",
    "Vega.Optistruct.C113_swap_false",
    "Vega.Optistruct.C113_blank_node_false",
    "Vega.Optistruct.C113_contact",
    "Vega.Optistruct.C113_contact_fields",
    "Vega.Optistruct.C113_type_false",
    "Vega.Optistruct.C113_subtype",
    "Vega.Optistruct.C113_cards_partial"
   ],
   "note": "Proved: C113_grid_partial, C113_elem_partial (the value of the set), C113_freq_partial, C113_surface, C113_surface_partial (round trip without reversed faces), C113_contact, C113_contact_fields. False: the group of cells of a SET of elements is always empty, the list being read twice (C113_elem_false); what follows a blank field in a list is lost (C113_gap_false); a word among frequencies makes the reading endless (C113_freq_word_false); the reversal of normals is not written (C113_swap_false); faces without nodes are written as -2147483648 and cannot be read back (C113_blank_node_false); the type of a contact is not kept (C113_type_false). Missing: ranges with BY (C25), the conversion of faces to cells, the set in which the contact is put (the common one)."
  },
  {
   "property": "C114",
   "status": "partial",
   "theorems": [
    "Vega.Tests.C114_aster_all",
    "Vega.Tests.C114_aster_displacement_partial",
    "Vega.Tests.C114_aster_small_partial",
    "Vega.Tests.C114_aster_small_false",
    "Vega.Tests.C114_aster_complex_partial",
    "Vega.Tests.C114_aster_vonMises_partial",
    "Vega.Tests.C114_aster_excluded",
    "Vega.Tests.C114_aster_frequency",
    "Vega.Tests.C114_aster_buckling",
    "Vega.Tests.C114_rigid_mass_false",
    "Vega.Tests.C114_aster_empty_false",
    "Vega.Tests.C114_systus_displacement_partial",
    "Vega.Tests.C114_systus_small",
    "Vega.Tests.C114_systus_frequency_partial",
    "Vega.Tests.C114_systus_complex_partial",
    "Vega.Tests.C114_systus_complex_false",
    "Vega.Tests.C114_systus_subcases_false",
    "Vega.Tests.C114_combination_false",
    "Vega.Tests.C114_systus_instant",
    "Vega.Tests.C114_aster_none"
   ],
   "note": "Proved: C114_aster_all, C114_aster_displacement_partial, C114_aster_small_partial, C114_aster_complex_partial, C114_aster_vonMises_partial (exact above 1e-7), C114_aster_frequency, C114_aster_buckling, C114_aster_excluded; for Systus C114_systus_displacement_partial, C114_systus_small, C114_systus_frequency_partial, C114_systus_complex_partial (what passes is within), C114_systus_instant. False: below 1e-7 the relative tolerance is used as a length (C114_aster_small_false: with 0.02 by default all displacements below 0.0199999 pass); the criterion of masses is chosen by the frequency (C114_rigid_mass_false); a TEST_RESU without tests is written if all frequencies are excluded (C114_aster_empty_false); Systus adds the differences of both parts (C114_systus_complex_false); the tests of all static analyses of a Systus file read the first case of load (C114_systus_subcases_false: no results can pass both); no tests for combinations (C114_combination_false). Missing: the meaning of TEST_RESU is taken as generally known; the moduli are compared by their squares; the printing of numbers."
  },
  {
   "property": "C115",
   "status": "partial",
   "theorems": [
    "Vega.SystusData.C115_elements_partial",
    "Vega.SystusData.C115_elements_false",
    "Vega.SystusData.C115_dimension_partial",
    "Vega.SystusData.C115_dimension_false",
    "Vega.SystusData.C115_digits",
    "Vega.SystusData.C115_left_out",
    "Vega.SystusData.C115_groups",
    "Vega.SystusData.C115_parts",
    "Vega.SystusData.C115_useful",
    "Vega.SystusData.C115_user_groups_false",
    "Vega.SystusData.C115_names_false",
    "Vega.SystusData.C115_masses",
    "Vega.SystusData.C115_materials",
    "Vega.SystusData.C115_option_partial",
    "Vega.SystusData.C115_option_false",
    "Vega.SystusData.C115_mixed"
   ],
   "note": "Proved: C115_elements_partial (no set left out), C115_dimension_partial, C115_groups, C115_parts, C115_useful, C115_masses, C115_materials, C115_option_partial. False: with masses at nodes, or relations of other files, more elements are announced than written (C115_elements_false; also in the header and the information section, which print the same number); tubes and composites are written as volumes (C115_dimension_false) and their rotations, like those of discrete segments, are not asked for (C115_option_false); groups of cells that belong to no element set are not written (C115_user_groups_false); names that differ by a space and an underscore become equal (C115_names_false). Missing: the overflow of the counter of parts; nodes, loads, lists, vectors and tables (C111) print the size of what they go through."
  },
  {
   "property": "C116",
   "status": "partial",
   "theorems": [
    "Vega.SystusMat.C116_numbers",
    "Vega.SystusMat.C116_elastic_partial",
    "Vega.SystusMat.C116_poisson_false",
    "Vega.SystusMat.C116_beam",
    "Vega.SystusMat.C116_shear_false",
    "Vega.SystusMat.C116_truss_partial",
    "Vega.SystusMat.C116_truss_false",
    "Vega.SystusMat.C116_shell",
    "Vega.SystusMat.C116_segment_partial",
    "Vega.SystusMat.C116_segment_false",
    "Vega.SystusMat.C116_spring",
    "Vega.SystusMat.C116_spring_false",
    "Vega.SystusMat.C116_rbe3",
    "Vega.SystusMat.C116_components",
    "Vega.SystusMat.C116_rbar",
    "Vega.SystusMat.C116_relation",
    "Vega.SystusMat.C116_skin",
    "Vega.SystusMat.C116_unsupported_false",
    "Vega.SystusMat.C116_files_partial",
    "Vega.SystusMat.C116_files_false",
    "Vega.SystusMat.C116_matrix"
   ],
   "note": "Proved: C116_numbers, C116_elastic_partial (positive constants), C116_beam, C116_truss_partial, C116_shell, C116_segment_partial (diagonal), C116_spring, C116_rbe3, C116_components, C116_rbar, C116_relation, C116_skin, C116_matrix, C116_files_partial (springs that have not both). False: a negative Poisson's ratio is not written (C116_poisson_false); rectangular trusses have no area (C116_truss_false); stiffnesses off the diagonal of a segment are lost without a message (C116_segment_false); shear areas are the area times a factor above one, though the comment in the code says that the inverse is needed (C116_shear_false; wrong only if AY is the area that takes shear, as the comment suggests); sets that are not supported have no record but their elements are written (C116_unsupported_false); a spring without directions is undefined behaviour (C116_spring_false); of a spring with stiffness and damping, the number kept is that of the damping matrix (C116_files_false). Missing: rounding to 15 digits; messages."
  },
  {
   "property": "C117",
   "status": "partial",
   "theorems": [
    "Vega.Relations.C117_imposed_partial",
    "Vega.Relations.C117_justified",
    "Vega.Relations.C117_nodes",
    "Vega.Relations.C117_long_false",
    "Vega.Relations.C117_many_false",
    "Vega.Relations.C117_value_false",
    "Vega.Relations.C117_table"
   ],
   "note": "Proved whenever the translation succeeds: C117_imposed_partial (every relation is imposed, coefficients within the tolerance of comparisons), C117_justified (nothing else is), C117_nodes, C117_table. False: the right-hand side of a relation is lost, without a message (C117_value_false: the elements do not depend on it); more than six relations between the same nodes are refused although the code cuts them into slices of six, as every set is given all of them (C117_many_false); so is a relation of more than twenty nodes (C117_long_false). Missing: floating point; the removal of the relations afterwards."
  },
  {
   "property": "C118",
   "status": "partial",
   "theorems": [
    "Vega.Rigid.C118_rigid",
    "Vega.Rigid.C118_average_partial",
    "Vega.Rigid.C118_justified",
    "Vega.Rigid.C118_fresh",
    "Vega.Rigid.C118_average_false",
    "Vega.Rigid.C118_rotation_false",
    "Vega.Rigid.C118_quasi_false",
    "Vega.Rigid.C118_total"
   ],
   "note": "Proved: C118_rigid, C118_average_partial (the part of slaves with equal components and weight), C118_justified (converse), C118_fresh, C118_total. False: an average with different weights or components is cut into parts that have different multipliers, so the master follows every part by itself and not the weighted average (C118_average_false, for all models); two constraints with one master have different nodes of rotations (C118_rotation_false), of which the map used for boundary conditions knows but the last (example); quasi-rigid constraints are translated as completely rigid, with a message (C118_quasi_false). Missing: what elements mean in Systus is taken from the comments of the code (elements with a common node of multipliers form one relation); coordinates of the nodes; the penalty stiffness."
  },
  {
   "property": "C119",
   "status": "partial",
   "theorems": [
    "Vega.AddedMass.C119_aster_partial",
    "Vega.AddedMass.C119_aster_false",
    "Vega.AddedMass.C119_systus_false",
    "Vega.AddedMass.C119_systus_lost_false",
    "Vega.AddedMass.C119_none"
   ],
   "note": "Proved: C119_aster_partial (if the address of the new material comes last), C119_none. False: with the other order of addresses the additional mass is lost, and modulus and density are doubled, because the copied set keeps the first material and the new cells go to the set that is copied (C119_aster_false, for all models); for Systus every cell is written three times with the first material and the new material is never used (C119_systus_false, C119_systus_lost_false, for all models). That the last assignment of a material to a cell counts in Code_Aster is as generally known. Missing: sets with several materials; division by area or thickness in floating point."
  },
  {
   "property": "C120",
   "status": "partial",
   "theorems": [
    "Vega.Virtual.C120_present",
    "Vega.Virtual.C120_minimal",
    "Vega.Virtual.C120_harmless",
    "Vega.Virtual.C120_blocked_partial",
    "Vega.Virtual.C120_blocked_false",
    "Vega.Virtual.C120_none_false",
    "Vega.Virtual.C120_elements"
   ],
   "note": "Proved: C120_present, C120_minimal, C120_harmless, C120_elements, C120_blocked_partial (in an analysis that needs all that any analysis needs at the node; so for models with one analysis). False: what one analysis needs and another does not is added without stiffness and is free in the other (C120_blocked_false, for all models), and an analysis that needs nothing there has nothing blocked (C120_none_false). Missing: names of groups, which may exist already."
  },
  {
   "property": "C121",
   "status": "partial",
   "theorems": [
    "Vega.LineLoad.C121_table",
    "Vega.LineLoad.C121_fraction_partial",
    "Vega.LineLoad.C121_rest_false",
    "Vega.LineLoad.C121_ramp_false",
    "Vega.LineLoad.C121_increasing_partial",
    "Vega.LineLoad.C121_decreasing_false",
    "Vega.LineLoad.C121_length_partial",
    "Vega.LineLoad.C121_length_false",
    "Vega.LineLoad.C121_projected_false",
    "Vega.LineLoad.C121_axis_false",
    "Vega.LineLoad.C121_three_nodes_false"
   ],
   "note": "Proved: C121_table (every table), C121_fraction_partial (the loaded part), C121_increasing_partial, C121_length_partial (beams that begin at the origin and go along x). False: on the rest of the beam the function has no value (C121_rest_false), a load acts beside the loaded part (C121_ramp_false), abscissas decrease for beams that go the other way, which Code_Aster does not admit, as generally known (C121_decreasing_false), lengths are taken for coordinates (C121_length_false), intensities for the projected length for those of the length (C121_projected_false), and beams perpendicular to x end the translation (C121_axis_false). Missing: at which points Code_Aster evaluates the function; extrapolation on both sides is not exchanged when the beam goes the other way, which cannot be seen with the tables of PLOAD1."
  },
  {
   "property": "C122",
   "status": "partial",
   "theorems": [
    "Vega.Segments.C122_rigid",
    "Vega.Segments.C122_kept",
    "Vega.Segments.C122_kept_any",
    "Vega.Segments.C122_each",
    "Vega.Segments.C122_total",
    "Vega.Segments.C122_viscous_values",
    "Vega.Segments.C122_viscous_false",
    "Vega.Segments.C122_ground_false",
    "Vega.Segments.C122_partly_false"
   ],
   "note": "Proved: C122_rigid, C122_kept, C122_kept_any, C122_each, C122_total, C122_viscous_values. False: dampers (PVISC) store no stiffness, so each of them is taken for rigid, its nodes are tied and its damping is set to zero (C122_viscous_false, for every card); a rigid spring to the ground becomes a link without slaves (C122_ground_false); a spring with some rigid directions keeps the largest double as stiffness (C122_partly_false). Missing: what the targets do with that number; that the card names only extension for the first value of PVISC, which VEGA uses along the three axes (C122_viscous_values), is as generally known."
  },
  {
   "property": "C123",
   "status": "partial",
   "theorems": [
    "Vega.Segments.C123_components",
    "Vega.Segments.C123_groups",
    "Vega.Segments.C123_cells_false"
   ],
   "note": "Proved: C123_components (every component, for every history), C123_groups (which points are replaced, one cell for each node in a group). False: the group is not added to the new segment, which has no cells (C123_cells_false, for every list of points), so that nothing acts on the nodes; old points are erased. Missing: that the writer writes elements by their cells (SystusWriter), which is only read, not modelled here."
  },
  {
   "property": "C124",
   "status": "partial",
   "theorems": [
    "Vega.ScalarCards.C124_last",
    "Vega.ScalarCards.C124_springs",
    "Vega.ScalarCards.C124_damper_false",
    "Vega.ScalarCards.C124_order_false",
    "Vega.ScalarCards.C124_element_false",
    "Vega.ScalarCards.C124_ground",
    "Vega.ScalarCards.C124_ground_false",
    "Vega.ScalarCards.C124_blank_node_false",
    "Vega.ScalarCards.C124_blank_component_false",
    "Vega.ScalarCards.C124_range_false",
    "Vega.ScalarCards.C124_celas2",
    "Vega.ScalarCards.C124_celas4",
    "Vega.ScalarCards.C124_celas1"
   ],
   "note": "Proved: C124_last, C124_springs (components 0 to 6), C124_ground. False: a damper whose PDAMP comes first has the number for 'no value' as stiffness, which is written (C124_damper_false, for every list; C124_order_false: the other order gives 0); a CELAS2 takes the stiffness of a PELAS with the number of the element (C124_element_false); the constraint of a ground node is in no constraint set (C124_ground_false); a blank second node is refused on CDAMP1 and CELAS2, and node 0 on CELAS2 is not the ground (C124_blank_node_false); a blank second component is refused (C124_blank_component_false); components are taken modulo 256 (C124_range_false). Missing: what the fields mean is as generally known, no manual is available; that only constraints of constraint sets are written (modelled under the writers)."
  },
  {
   "property": "C125",
   "status": "partial",
   "theorems": [
    "Vega.Bars.C125_sound",
    "Vega.Bars.C125_complete",
    "Vega.Bars.C125_told",
    "Vega.Bars.C125_dismissed_false",
    "Vega.Bars.C125_component_false",
    "Vega.Bars.C125_spaces_false",
    "Vega.Bars.C125_bush",
    "Vega.Bars.C125_bush_place_false"
   ],
   "note": "Proved: C125_sound, C125_complete (all cards CBAR and CBEAM), C125_told (what is left out is told), C125_bush. False: releases and offsets change nothing (C125_dismissed_false, for every card; there is a warning); a vector with a blank component is refused (C125_component_false); a node followed by fields that hold blanks, in free format, is refused (C125_spaces_false); a bush that gives the place of the spring but no orientation is refused (C125_bush_place_false). Missing: the system in which the vector is given (as generally known that of the first node; here the global one) is not modelled; warnings of CBUSH; best-effort mode; reals are exact."
  },
  {
   "property": "C126",
   "status": "partial",
   "theorems": [
    "Vega.Materials.C126_mathp_accepted",
    "Vega.Materials.C126_rayleigh",
    "Vega.Materials.C126_rayleigh_imaginary",
    "Vega.Materials.C126_cards",
    "Vega.Materials.C126_twice",
    "Vega.Materials.C126_orthotropic",
    "Vega.Materials.C126_elastic",
    "Vega.Materials.C126_hyperelastic",
    "Vega.Materials.C126_plastic",
    "Vega.Materials.C126_assigned",
    "Vega.Materials.C126_none",
    "Vega.Materials.C126_dangling_false",
    "Vega.Materials.C126_strength_false",
    "Vega.Materials.C126_expansion_false",
    "Vega.Materials.C126_density_false",
    "Vega.Materials.C126_bulk_false",
    "Vega.Materials.C126_slope_false",
    "Vega.Materials.C126_blank_false",
    "Vega.Materials.C126_nonlinear_false",
    "Vega.Materials.C126_damping_false"
   ],
   "note": "Proved: C126_cards, C126_twice, C126_elastic, C126_orthotropic, C126_hyperelastic, C126_plastic, C126_assigned. False: the transverse tensile strength YT of MAT8 is never written (C126_strength_false) nor the thermal expansion of MAT1 (C126_expansion_false), for every card; the mass factor is not applied to MATHP (C126_density_false); D1 is written as bulk modulus, which is twice D1 (C126_bulk_false) and the plastic slope H as total tangent slope (C126_slope_false), both as the programs are generally known; blank H or limit of MATS1 are written as -DBL_MAX (C126_blank_false); nothing is written of NLELAST (C126_nonlinear_false); MAT8 with GE is refused (C126_damping_false); a property that names an undefined material dereferences a null pointer (C126_dangling_false). Missing: identifiers of the orders, DEFI_COMPOSITE (see C49 for layers), the names of groups in AFFE_MATERIAU, best-effort mode; numbers are exact, their printing is not modelled."
  },
  {
   "property": "C127",
   "status": "partial",
   "theorems": [
    "Vega.LoadCards.C127_cards_partial",
    "Vega.LoadCards.C127_deck_partial",
    "Vega.LoadCards.C127_sets_partial",
    "Vega.LoadCards.C127_ends",
    "Vega.LoadCards.C127_components_false",
    "Vega.LoadCards.C127_moment_false",
    "Vega.LoadCards.C127_system_false",
    "Vega.LoadCards.C127_turns_false",
    "Vega.LoadCards.C127_origin_false",
    "Vega.LoadCards.C127_plus_false",
    "Vega.LoadCards.C127_minus_false"
   ],
   "note": "Proved: C127_cards_partial (an equivalence: acceptance and meaning), C127_deck_partial, C127_sets_partial, C127_ends. Left out of these and false: a MOMENT with a blank component gets -DBL_MAX times the factor instead of 0, for every such card (C127_moment_false; FORCE is right); the coordinate system of RFORCE is dismissed (C127_system_false); A of RFORCE, in turns by unit of time as the card is generally known, is written as Code_Aster's VITESSE in rad/s, wrong for every A but 0 (C127_turns_false); a rotation about the origin (G = 0) is about a point at -DBL_MAX (C127_origin_false); SPCD with a component that does not exist reads out of bounds (C127_components_false), with second components -1 drops the second displacement (C127_minus_false); a second node written with + makes SPCD refused (C127_plus_false). Missing: best-effort mode, METHOD, RACC and MB of RFORCE (warnings only), the input context of loads; numbers are exact."
  },
  {
   "property": "C128",
   "status": "partial",
   "theorems": [
    "Vega.Assign.C128_models",
    "Vega.Assign.C128_names",
    "Vega.Assign.C128_fits",
    "Vega.Assign.C128_discrete",
    "Vega.Assign.C128_shells",
    "Vega.Assign.C128_others",
    "Vega.Assign.C128_only",
    "Vega.Assign.C128_orientations",
    "Vega.Assign.C128_beams_false",
    "Vega.Assign.C128_axisymmetric_false",
    "Vega.Assign.C128_empty_false"
   ],
   "note": "Proved: C128_models, C128_fits, C128_discrete, C128_shells, C128_others, C128_only, C128_orientations. False: a beam without cells still has a block (C128_beams_false; not reached as long as sets without cells are removed, which is the default for Code_Aster, ConfigurationParameters.cpp 54); axisymmetric sets have the model of three dimensions (C128_axisymmetric_false; no reader makes them); without element sets the order is closed and not opened (C128_empty_false); skins have no block unless there are solids (in C128_others). Missing: the numbers of matrices and sections (C47, C50, C63, C64, C68, C69), the text of keywords. The table of which characteristics go with which model is as Code_Aster is generally known."
  },
  {
   "property": "C129",
   "status": "partial",
   "theorems": [
    "Vega.LocalSpc.C129_same_partial",
    "Vega.LocalSpc.C129_seen",
    "Vega.LocalSpc.C129_group_false",
    "Vega.LocalSpc.C129_spherical_false",
    "Vega.LocalSpc.C129_axis_false",
    "Vega.LocalSpc.C129_reference_false",
    "Vega.LocalSpc.C129_mpc_false"
   ],
   "note": "Proved: C129_same_partial, C129_seen (the displacement in the system of a node exists and is unique). Missing: rounding; cylindrical systems defined in others. False: nodes given by a group are erased where they are not, which is undefined behaviour (C129_group_false); spherical systems end with an error (C129_spherical_false); on the axis of a cylinder the coefficients are not numbers (C129_axis_false); values given by functions end with an error (C129_reference_false); the relations given by the model (MPC) are left as they are, although their coefficients are for the systems of the nodes (C129_mpc_false; that MPC coefficients are in the displacement systems is as Nastran is generally known)."
  },
  {
   "property": "C130",
   "status": "partial",
   "theorems": [
    "Vega.Written.C130_loads_partial",
    "Vega.Written.C130_constraints_partial",
    "Vega.Written.C130_objectives",
    "Vega.Written.C130_elements",
    "Vega.Written.C130_excitations",
    "Vega.Written.C130_refused",
    "Vega.Written.C130_succeeds",
    "Vega.Written.C130_marked_before_false",
    "Vega.Written.C130_contacts_false",
    "Vega.Written.C130_stresses_false"
   ],
   "note": "Proved: C130_loads_partial, C130_constraints_partial, C130_objectives, C130_elements, C130_excitations, C130_refused, C130_succeeds. Missing: static loads in models that also have frequency responses; what nonlinear analyses, responses and eigenvalue searches call besides excitations. False: loads marked beforehand by a combination that copies them are reported as written although they are not (C130_marked_before_false: temperatures); constraints in a set with contacts are called by no analysis, which is reported as a success (C130_contacts_false); requests of stresses are written and reported as incomplete (C130_stresses_false; no reader makes them)."
  },
  {
   "property": "C131",
   "status": "partial",
   "theorems": [
    "Vega.Required.C131_kept",
    "Vega.Required.C131_testable",
    "Vega.Required.C131_loads_partial",
    "Vega.Required.C131_final",
    "Vega.Required.C131_combined_false",
    "Vega.Required.C131_combined_case",
    "Vega.Required.C131_shared_false"
   ],
   "note": "Proved: C131_kept (which expected results stay), C131_testable (what stays has its component), C131_loads_partial (loads of the sets of an analysis and constraints), C131_final (loads after replacement of combined sets). False: the components are collected before combined load sets are replaced, so loads that come through a LOAD card may act on components that do not exist and expected results there are dropped (C131_combined_false, with the case C131_combined_case); a set of expected results shared by two analyses loses a result for both when one lacks the component (C131_shared_false; the readers give each analysis a set of its own, so only the common set and users of the library meet it)."
  },
  {
   "property": "C132",
   "status": "partial",
   "theorems": [
    "Vega.Dmig.C132_coefficients",
    "Vega.Dmig.C132_read",
    "Vega.Dmig.C132_shared_false",
    "Vega.Dmig.C132_list_false",
    "Vega.Dmig.C132_component_false"
   ],
   "note": "Proved: C132_coefficients and its converse C132_read, for cards with one component in each field for it, in exact arithmetic and strict mode; imaginary parts are not looked at, since only real matrices are accepted. False: a name selected twice fills only the first of the two matrices (C132_shared_false, for all cards); names separated by blanks in the command are joined into one name that no card has, and the command is accepted although lists are to be refused (C132_list_false); a field with several components is accepted and its first taken (C132_component_false)."
  },
  {
   "property": "C133",
   "status": "partial",
   "theorems": [
    "Vega.Contacts.C133_cards_partial",
    "Vega.Contacts.C133_deck_partial",
    "Vega.Contacts.C133_zone_partial",
    "Vega.Contacts.C133_slide_partial",
    "Vega.Contacts.C133_facets_partial",
    "Vega.Contacts.C133_number_false",
    "Vega.Contacts.C133_numbers_false",
    "Vega.Contacts.C133_order_false",
    "Vega.Contacts.C133_facets_false",
    "Vega.Contacts.C133_blank_false",
    "Vega.Contacts.C133_triangle_false",
    "Vega.Contacts.C133_undefined_false",
    "Vega.Contacts.C133_required_false",
    "Vega.Contacts.C133_symmetry_false"
   ],
   "note": "Proved: C133_cards, C133_deck, C133_zone, C133_slide and C133_facets, for cards without THRU or BY, in strict mode, when no two kinds of targets share a number. False: a body numbered as its own surface is always refused (C133_number_false, C133_numbers_false); with shared numbers the target found depends on the order of a hash table (C133_order_false); a surface of nodes whose list is not a multiple of four is read beyond its end (C133_facets_false, C133_triangle_false), and a blank fourth node ends the list (C133_blank_false); an empty line or a missing friction is undefined behaviour (C133_undefined_false); BCONP with a blank friction or coordinate system is refused (C133_required_false); the type of penetration and the factor are ignored (C133_symmetry_false). The zones of BCTABLE are selected by no case (C97_never_selected_false)."
  },
  {
   "property": "C134",
   "status": "partial",
   "theorems": [
    "Vega.Named.C134_named_partial",
    "Vega.Named.C134_group_partial",
    "Vega.Named.C134_later_false",
    "Vega.Named.C134_lost_false",
    "Vega.Named.C134_range_false",
    "Vega.Named.C134_order_false"
   ],
   "note": "Proved: C134_named when every element stands before the cards that name it, and C134_group for every file. Element numbers are distinct and the numbers of nodes right. False: an element that does not stand before its card ends the program, is undefined behaviour or is written as the cell M2147483648, according to the writer (C134_later_false, for all files; C134_range_false for ranges with gaps); groups silently lose such elements (C134_lost_false); so the order of the cards changes the model (C134_order_false). Cells updated afterwards are the subject of C15."
  },
  {
   "property": "C135",
   "status": "partial",
   "theorems": [
    "Vega.Added.C135_union_partial",
    "Vega.Added.C135_order_partial",
    "Vega.Added.C135_accepted",
    "Vega.Added.C135_nested_false",
    "Vega.Added.C135_unselected_false"
   ],
   "note": "Proved: C135_union when no union has unions among its sets, C135_order, C135_accepted (an equivalence), in strict mode. False: a union of unions is accepted and loses the supports of the inner unions (C135_nested_false, for all cards); a union that no case selects is refused (C135_unselected_false, for all cards). That supports registered under a number are found under it is C29. What passes over the model make of unions is in C39."
  },
  {
   "property": "C136",
   "status": "partial",
   "theorems": [
    "Vega.C136_held_partial",
    "Vega.C136_held_solid_partial",
    "Vega.C136_axes_partial",
    "Vega.C136_spherical_false",
    "Vega.C136_bodies_false"
   ],
   "note": "Proved: C136_held (six components), C136_held_solid (three components, with nodes of rotations), C136_axes. The angles of a system are a parameter here; that they give the axes is C61. False: no model with a node in a spherical system is written: the system says it is cylindrical, its pointer is cast to the wrong class, and the conversion ends with an exception at best (C136_spherical_false, for all models); the rotations of a master of two rigid bodies are held on the node of the last body only (C136_bodies_false). That only the constraints of the first analysis of a subcase count is C110; the numbers of lists on the lines are those of C111."
  },
  {
   "property": "C137",
   "status": "partial",
   "theorems": [
    "Vega.C137_bar_partial",
    "Vega.C137_vector_partial",
    "Vega.C137_spring_partial",
    "Vega.C137_triangle_partial",
    "Vega.C137_quadrangle_false",
    "Vega.C137_cylindrical_false",
    "Vega.C137_point_false",
    "Vega.C137_none"
   ],
   "note": "Proved: C137_bar (bars whose ends differ by more than the tolerance), C137_vector (orientations entered as a vector meet its hypotheses), C137_spring, C137_triangle (triangles that are not horizontal). Real arithmetic, not floating point; springs whose first axis is within 1e-8 of the vertical are left out (C61); that Systus counts angles from these axes, and their unit, is taken from the program's comments. False: the test meant to dismiss cylindrical and spherical systems never holds, so a spring in a cylindrical system gets the axes of the system wherever it is (C137_cylindrical_false, for all); the angle of a shell with more than three nodes does not depend on the shell (C137_quadrangle_false; no Nastran shell reaches this with axes of its own); the orientation of a spring with one node is dropped with a warning (C137_point_false)."
  },
  {
   "property": "C138",
   "status": "partial",
   "theorems": [
    "Vega.NastranWrite.C138_points_partial",
    "Vega.NastranWrite.C138_nodes_partial",
    "Vega.NastranWrite.C138_written_false",
    "Vega.NastranWrite.C138_spherical_false"
   ],
   "note": "Proved: C138_points (CORD2R, CORD2C, CORD2S on cards of small fields, coordinates to the precision of a field), C138_nodes (CORD1R). That a reference may be defined later is C45, the axes from nodes C43. False: the card written for a system has its origin from the field of the system of reference on and no other point, so the program itself refuses it, for every system (C138_written_false); spherical systems are written under the name of cylindrical ones (C138_spherical_false). The program's comments say the writing is to be completed."
  },
  {
   "property": "C139",
   "status": "partial",
   "theorems": [
    "Vega.ModeCards.C139_cards_partial",
    "Vega.ModeCards.C139_written_partial",
    "Vega.ModeCards.C139_norm_false",
    "Vega.ModeCards.C139_eigb_false",
    "Vega.ModeCards.C139_grid_false",
    "Vega.ModeCards.C139_complex_false",
    "Vega.ModeCards.C139_missing_false",
    "Vega.ModeCards.C139_several_false"
   ],
   "note": "Proved: C139_cards (iff, strict mode), C139_written (Code_Aster and Systus). Numbers are exact. False: any other norm than MASS is taken for MAX although the warning says MASS (C139_norm_false); the norm of EIGB is looked for one field too far, so it is not read (C139_eigb_false) and the number of a grid point is taken for it (C139_grid_false); EIGC has no effect on any file (C139_complex_false); a set without a card is undefined behaviour (C139_missing_false), and of several cards in a set only the first counts (C139_several_false)."
  },
  {
   "property": "C140",
   "status": "partial",
   "theorems": [
    "Vega.Rods.C140_cards_partial",
    "Vega.Rods.C140_sections_partial",
    "Vega.Rods.C140_aster_partial",
    "Vega.Rods.C140_torsion_false",
    "Vega.Rods.C140_large_false",
    "Vega.Rods.C140_same_false",
    "Vega.Rods.C140_warning_false",
    "Vega.Rods.C140_nastran_section_false",
    "Vega.Rods.C140_nastran_next_false",
    "Vega.Rods.C140_nastran_rod_false"
   ],
   "note": "Proved: C140_cards (iff), C140_sections (any order of cards; files of rods only), C140_aster (bar with the area, added density gives the mass per length; linear analyses, areas of at least epsilon). Numbers are exact. False: the torsional constant has no effect in linear analyses (C140_torsion_false); with large displacements a rod of PROD gets the bending stiffness of a circle (C140_large_false) and one of CONROD does not (C140_same_false); the warning that the mass of PROD is dismissed is wrong (C140_warning_false); in Nastran files the address of the section is written instead of the card PROD (C140_nastran_section_false) and spoils the next card (C140_nastran_next_false), and the rods have no card name, so that they continue the card before (C140_nastran_rod_false). The texts of addresses are parameters."
  },
  {
   "property": "C141",
   "status": "partial",
   "theorems": [
    "Vega.Nastran.C141_order_partial",
    "Vega.Nastran.C141_flat_partial",
    "Vega.Nastran.C141_name",
    "Vega.Nastran.C141_missing",
    "Vega.Nastran.C141_itself_false",
    "Vega.Nastran.C141_long_name_false",
    "Vega.Nastran.C141_continuation_false",
    "Vega.Nastran.C141_enddata_false"
   ],
   "note": "Proved for the strict mode: C141_order (cards in order), C141_flat (same as the single text), C141_name, C141_missing. Cards are those of the round trips of C22 and C23; joining paths is left open. False: a file that includes itself is read without end (C141_itself_false); a name that reaches column 73 makes the next card disappear (C141_long_name_false); so does a continuation after the inclusion (C141_continuation_false); cards after ENDDATA are read (C141_enddata_false)."
  },
  {
   "property": "C142",
   "status": "partial",
   "theorems": [
    "Vega.NonLinear.C142_card",
    "Vega.NonLinear.C142_path_partial",
    "Vega.NonLinear.C142_ends_partial",
    "Vega.NonLinear.C142_increments_partial",
    "Vega.NonLinear.C142_zero_false",
    "Vega.NonLinear.C142_strategy_false",
    "Vega.NonLinear.C142_missing",
    "Vega.NonLinear.C142_mixed_false",
    "Vega.NonLinear.C142_imposed_false"
   ],
   "note": "Proved: C142_card, C142_path, C142_ends, C142_increments, for numbers of increments that are positive and fewer than 2^49 subcases, all of them nonlinear; numbers are exact, and the values of the functions are those of Code_Aster as generally known. False: a number of increments that is zero is accepted and gives an empty name where the list of instants is used (C142_zero_false); a number with nothing but NLPCI is used as if it had NLPARM, also in strict mode, and a missing number without it (C142_strategy_false); after a subcase of another type the loads of the latter are taken away from its result (C142_mixed_false); imposed displacements are applied in full at the first increment (C142_imposed_false). Materials, contacts and the solver are left out."
  },
  {
   "property": "C143",
   "status": "partial",
   "theorems": [
    "Vega.Auto.C143_type",
    "Vega.Auto.C143_common_partial",
    "Vega.Auto.C143_modal_false",
    "Vega.Auto.C143_nonlinear_false",
    "Vega.Auto.C143_static_false",
    "Vega.Auto.C143_applied"
   ],
   "note": "Proved: C143_type (one analysis of the right type, nothing else changed), C143_common (works when the objective is in the common set, as in the tests). False for files: with a search of frequencies the translation is undefined behaviour (C143_modal_false), with a nonlinear strategy it is an error or undefined behaviour (C143_nonlinear_false), and a static analysis applies none of the loads and supports of the file that have numbers (C143_static_false)."
  },
  {
   "property": "C144",
   "status": "partial",
   "theorems": [
    "Vega.DisplacementsSpec.C144_requested_partial",
    "Vega.DisplacementsSpec.C144_missing_node_false",
    "Vega.DisplacementsSpec.C144_all_false",
    "Vega.DisplacementsSpec.C144_phase_false",
    "Vega.DisplacementsSpec.C144_frequency_all_false",
    "Vega.DisplacementsSpec.C144_twice_false",
    "Vega.DisplacementsSpec.C144_files_false"
   ],
   "note": "Proved: C144_requested_partial, for every file and mesh when the lists asked for name nodes of the mesh only, are not empty, and no group has their names. False otherwise, for every file: a number without a node becomes a node at -DBL_MAX of the mesh that is written (C144_missing_node_false), a list that is ALL or not there ends the translation (C144_all_false), PHASE is lost (C144_phase_false), each subcase gets the requests of all subcases with the same list (C144_twice_false), analyses in frequency without a list get no displacements (C144_frequency_all_false). C144_files_false has whole files. Not modelled: LIST_FREQ (never selected), groups of cells in outputs."
  },
  {
   "property": "C145",
   "status": "partial",
   "theorems": [
    "Vega.SystusSections.C145_line",
    "Vega.SystusSections.C145_quote_false",
    "Vega.SystusSections.C145_names",
    "Vega.SystusSections.C145_title",
    "Vega.SystusSections.C145_node_loads",
    "Vega.SystusSections.C145_element_loads",
    "Vega.SystusSections.C145_imposed_partial",
    "Vega.SystusSections.C145_cases",
    "Vega.SystusSections.C145_counts",
    "Vega.SystusSections.C145_dofs",
    "Vega.SystusSections.C145_ncodes",
    "Vega.SystusSections.C145_references_partial",
    "Vega.SystusSections.C145_rotation_false"
   ],
   "note": "Proved: C145_counts, C145_dofs, C145_node_loads, C145_element_loads, C145_cases, C145_names, C145_line, C145_title for all models whose analyses, and whose sets of loads in an analysis, have different numbers; C145_imposed_partial and C145_references_partial if in the option 3D no constraint concerns two rotational nodes. False: a rotation imposed on two rotational nodes makes a list name a vector that is not in the file (C145_rotation_false); a name with a quotation mark ends there (C145_quote_false). The decimal writing of numbers outside the lines of load cases is not modelled, nor the lines of materials, groups and tables (C115, C116). The number of elements that is announced is the subject of C115."
  },
  {
   "property": "C146",
   "status": "partial",
   "theorems": [
    "Vega.Missing.C146_cases",
    "Vega.Missing.C146_complete",
    "Vega.Missing.C146_strict_nastran_partial",
    "Vega.Missing.C146_strict_false",
    "Vega.Missing.C146_case_lost_false",
    "Vega.Missing.C146_support_false",
    "Vega.Missing.C146_method_false",
    "Vega.Missing.C146_system_false",
    "Vega.Missing.C146_terminate_false"
   ],
   "note": "Proved: C146_complete (all outputs, all modes), C146_cases (Code_Aster and Systus: what is written, exactly), C146_strict_nastran_partial (strict mode, output Nastran: refused iff a selected set of loads is missing, or an unselected force has an unknown coordinate system). False: for Code_Aster and Systus strict mode does not refuse missing loads or supports, they are dropped in silence because empty sets are removed before the validation (C146_strict_false); for Nastran outside of strict mode the whole case is lost instead of the missing loads (C146_case_lost_false), and missing supports are never noticed (C146_support_false); a missing method is a null pointer in all modes (C146_method_false); a selected force in an unknown coordinate system ends the translation with a logic error in all modes (C146_system_false); one that is not selected ends the program with std::terminate outside of strict mode, since the function LoadSet::empty is noexcept and the erased load is still referenced (C146_terminate_false). Not modelled here: LOAD and SPCADD combinations, other kinds of loads and constraints, files without a case (C143), other passes of finish."
  },
  {
   "property": "C147",
   "status": "partial",
   "theorems": [
    "Vega.ScalarPoints.C147_card",
    "Vega.ScalarPoints.C147_cards",
    "Vega.ScalarPoints.C147_clash_false",
    "Vega.ScalarPoints.C147_mixed_false",
    "Vega.ScalarPoints.C147_blank_false"
   ],
   "note": "Proved: C147_card (any state of the mesh: points, other nodes, constraint, group) and C147_cards (any sequence of cards). False: a point whose number is that of a GRID moves this node to the origin and holds it, without an error (C147_clash_false, for every node); in a list followed by a range, or with a blank field inside, the points after it are not created and no error is reported (C147_mixed_false, C147_blank_false). That every analysis takes the common set (Analysis.cpp 263-267, the fields of which are modelled in Verif/Sets) is not part of this model. allowDOFS (the degrees of freedom recorded in the node) is not modelled."
  },
  {
   "property": "C148",
   "status": "partial",
   "theorems": [
    "Vega.Behaviour.C148_laws",
    "Vega.Behaviour.C148_once",
    "Vega.Behaviour.C148_defined",
    "Vega.Behaviour.C148_nlelast_false",
    "Vega.Behaviour.C148_large_false",
    "Vega.Behaviour.C148_refused"
   ],
   "note": "Proved: C148_laws (which occurrences there are, exactly), C148_once (one occurrence for a cell of one property with one material), C148_defined (ECRO_LINE for plasticity and ELAS_HYPER for hyperelasticity are written). False: nonlinear elasticity has the relation ELAS_VMIS_LINE but no ECRO_LINE, and its table is lost (C148_nlelast_false, for every such material); with PARAM LGDISP cells that are no beams or rods, and materials with MATS1, have no DEFORMATION (C148_large_false, for all of them). What the relations of Code_Aster need is as generally known: no manual is in the repository. Not modelled: contacts of the analysis, names of groups and cells."
  },
  {
   "property": "C149",
   "status": "partial",
   "theorems": [
    "Vega.Cli.C149_parameters",
    "Vega.Cli.C149_version",
    "Vega.Cli.C149_no_input",
    "Vega.Cli.C149_dialect_false",
    "Vega.Cli.C149_flag_false",
    "Vega.Cli.C149_quote_false",
    "Vega.Cli.C149_level_false",
    "Vega.Cli.C149_single_false",
    "Vega.Cli.C149_rigidity_false",
    "Vega.Cli.C149_status_false"
   ],
   "note": "Proved: C149_parameters (equivalence, for all sources), C149_version, C149_no_input. False: the dialect of Nastran cannot be given in the configuration file (C149_dialect_false); an option without value is on whatever the file says, strict=false included (C149_flag_false); a path that begins with a quote loses its last character even when this is no quote (C149_quote_false); an unknown level is taken as INFO (C149_level_false); texts after the list single are neither read nor refused (C149_single_false); the rigidity of rigid elements is silently ignored with multipliers (C149_rigidity_false); refused values end with the status of a crash (C149_status_false, see C77). Both options mesh-at-least and strict are accepted: see C76. The behaviour of Boost Program_options (precedence, repeated options, values of options without value) is as generally known: the library is not in the repository. Not modelled: the texts of the two sources, abbreviations and short names, expand_user, existence of files."
  },
  {
   "property": "C150",
   "status": "partial",
   "theorems": [
    "Vega.Tsai.C150_theory",
    "Vega.Tsai.C150_indices_partial",
    "Vega.Tsai.C150_destroyed",
    "Vega.Tsai.C150_names_partial",
    "Vega.Tsai.C150_names_false",
    "Vega.Tsai.C150_texts",
    "Vega.Tsai.C150_length_false",
    "Vega.Tsai.C150_refused",
    "Vega.Tsai.C150_blank_false",
    "Vega.Tsai.C150_isotropic_false"
   ],
   "note": "Proved, where every ply has an orthotropic material (the pass of C67 makes it so): C150_indices_partial (the printed stresses and indices are those of each layer, for all stresses and angles), C150_destroyed, C150_names_partial (one composite with this criterion), C150_texts, C150_theory, C150_refused. False: with two composites the same formulas are given the same names in one analysis (C150_names_false); a blank strength in compression is written as -DBL_MAX instead of that in tension, so that no compression along the fibres fails (C150_blank_false); plies of an isotropic material get no strengths at all and never fail, although MAT1 may give them (C150_isotropic_false); names of more than 8 characters (C150_length_false). The commands of Code_Aster and the criterion are as generally known. Left out: rounding of what is printed, the cells named by writeCellContainer, whether SIGM_ELNO exists in the result of every kind of analysis."
  },
  {
   "property": "C151",
   "status": "partial",
   "theorems": [
    "Vega.Csv.C151_table_partial",
    "Vega.Csv.C151_ends",
    "Vega.Csv.C151_prefix_false",
    "Vega.Csv.C151_missing_false",
    "Vega.Csv.C151_named_false",
    "Vega.Csv.C151_unnamed_false",
    "Vega.Csv.C151_nodeless_false",
    "Vega.Csv.C151_comment_false",
    "Vega.Csv.C151_order_false",
    "Vega.Csv.C151_analysis_partial",
    "Vega.Csv.C151_lost_false",
    "Vega.Csv.C151_own_partial",
    "Vega.Csv.C151_own_false",
    "Vega.Csv.C151_systus_false",
    "Vega.Csv.C151_reader",
    "Vega.Csv.C151_extension_false"
   ],
   "note": "Proved: C151_table_partial (the tests of every printed table, all of it read), C151_analysis_partial, C151_own_partial (numbers in order), C151_ends, C151_reader. False: a column whose name begins with a known one (NOEUD_CMP) loses the whole table without an error (C151_prefix_false); so do a missing file (C151_missing_false), a name without extension (C151_extension_false), results not named RESU (C151_named_false) or whose number is that of no subcase (C151_lost_false); a table without the column RESULTAT is undefined behaviour (C151_unnamed_false), a comment at the end of the file an exception (C151_comment_false); NUME_ORDRE is ignored, so that the modes of a table contradict each other (C151_order_false); the table printed for a translation names analyses and nodes by other numbers than those that are looked for (C151_own_false); a strict translation to Systus fails at the first test (C151_systus_false). What Boost.Spirit and Code_Aster do is as generally known. Left out: texts in quotes beyond the reading of them, rounding, hexadecimal numbers."
  },
  {
   "property": "C152",
   "status": "partial",
   "theorems": [
    "Vega.Runs.C152_aster_names",
    "Vega.Runs.C152_systus_names_partial",
    "Vega.Runs.C152_input",
    "Vega.Runs.C152_same_false",
    "Vega.Runs.C152_aster_fresh_partial",
    "Vega.Runs.C152_aster_idle_partial",
    "Vega.Runs.C152_stale_false",
    "Vega.Runs.C152_remote_false",
    "Vega.Runs.C152_command_partial",
    "Vega.Runs.C152_command_false",
    "Vega.Runs.C152_systus_fresh_partial",
    "Vega.Runs.C152_systus_idle_partial",
    "Vega.Runs.C152_deleted_false",
    "Vega.Runs.C152_others_false",
    "Vega.Runs.C152_topaze_false",
    "Vega.Runs.C152_output_false",
    "Vega.Runs.C152_own",
    "Vega.Runs.C152_topaze"
   ],
   "note": "Proved: C152_aster_names, C152_systus_names_partial (`_ALL` not in the name), C152_input, C152_aster_fresh_partial and C152_systus_fresh_partial (a run is reported as on a directory without earlier results, when they can be removed), C152_aster_idle_partial, C152_systus_idle_partial (no success without a result), C152_command_partial (no blanks). False: two models whose names differ by the extension share their files (C152_same_false); an earlier result that cannot be removed is judged in place of that of the run (C152_stale_false); results are removed before a remote run is refused (C152_remote_false); an output directory with a blank in its name (C152_command_false); a model whose name begins with SYSTUS has the data files it has just written removed (C152_deleted_false); results of models whose names begin with that of the model are removed (C152_others_false); stale data files are run with topaze (C152_topaze_false), where the errors of all subcases but the last are overwritten (C152_output_false). The shell, the file system and the solvers are modelled as generally known: commands as texts, directories as flat lists of files, links and access rights only as a file that cannot be removed."
  },
  {
   "property": "C153",
   "status": "partial",
   "theorems": [
    "Vega.SkinsSpec.C153_outward",
    "Vega.SkinsSpec.C153_hexa20_false",
    "Vega.SkinsSpec.C153_pushes",
    "Vega.SkinsSpec.C153_type",
    "Vega.SkinsSpec.C153_skins",
    "Vega.SkinsSpec.C153_swap_false",
    "Vega.SkinsSpec.C153_twice_false",
    "Vega.SkinsSpec.C153_one_cell"
   ],
   "note": "Proved: C153_type, C153_skins (all loads and all surfaces of a model, when the names of the groups are free), C153_one_cell, C153_outward and C153_pushes (affine images of the reference solids: every tetrahedron, pyramids on parallelograms, prisms, parallelepipeds; corners of curved cells). False: the third face of HEXA20 has its skin inside out, so a pressure on it has the wrong sign (C153_hexa20_false), and its second face has a node twice (C153_twice_false); the flag of OptiStruct that asks for the opposite normal is ignored (C153_swap_false). Not covered: solids with faces that are not flat or not parallel-sided, left-handed solids, the sense of PRES_REP in the solver (as commented in the writer)."
  },
  {
   "property": "C154",
   "status": "partial",
   "theorems": [
    "Vega.Penalty.C154_modulus",
    "Vega.Penalty.C154_stiffness",
    "Vega.Penalty.C154_between",
    "Vega.Penalty.C154_order",
    "Vega.Penalty.C154_units",
    "Vega.Penalty.C154_positive",
    "Vega.Penalty.C154_springs_false",
    "Vega.Penalty.C154_coincident_false",
    "Vega.Penalty.C154_same",
    "Vega.Penalty.C154_options",
    "Vega.Penalty.C154_lagrangian_false"
   ],
   "note": "Proved: C154_modulus, C154_stiffness, C154_between, C154_order, C154_units, C154_positive, C154_same, C154_options. False: without an elastic part (springs, matrices, other laws) rigid bars have the rigidity 0 (C154_springs_false); when all cells of some type, such as rigid bars or springs, have their nodes at one place the smallest element of an empty list is dereferenced, also with the Lagrange formulation (C154_coincident_false; in practice a value left in memory is read and not used); the older option for Lagrange multipliers sets the rigidity of the penalty (C154_lagrangian_false). The branch that raises a zero length to 1 is never taken. Not covered: rounding, the smallest and largest distances (no translation uses them), the change of the cells of rigid sets (C118)."
  },
  {
   "property": "C155",
   "status": "partial",
   "theorems": [
    "Vega.MatrixCellsSpec.C155_cells_partial",
    "Vega.MatrixCellsSpec.C155_order",
    "Vega.MatrixCellsSpec.C155_split",
    "Vega.MatrixCellsSpec.C155_large_false",
    "Vega.MatrixCellsSpec.C155_name_false"
   ],
   "note": "Proved: C155_cells_partial, C155_order, C155_split. Missing from the full statement: C155_cells_partial requires that no group of the model is called DM and a number, and that matrices have at most 20 nodes. False otherwise: a group of cells called DM1 in the model stops the translation (C155_name_false), as does a matrix of more than 20 nodes, which the option for the size of matrices lets through when it is above 20 (C155_large_false). Not covered: the flag for virtual cells, groups of element sets that do not exist."
  },
  {
   "property": "C156",
   "status": "partial",
   "theorems": [
    "Vega.SetGroupsSpec.C156_names",
    "Vega.SetGroupsSpec.C156_length",
    "Vega.SetGroupsSpec.C156_groups",
    "Vega.SetGroupsSpec.C156_taken_false"
   ],
   "note": "Proved: C156_names, C156_length, C156_groups (under the condition that no group of the model has the name of such a group). False otherwise: a group of the model with such a name, for instance LS_LOAD_1, stops the translation (C156_taken_false). That two sets of one type never have the same number is an invariant of the containers of the model (C07); the nodes of each load are taken as given. Not covered: groups of displacement outputs."
  },
  {
   "property": "C157",
   "status": "partial",
   "theorems": [
    "Vega.AmplitudesSpec.C157_tables",
    "Vega.AmplitudesSpec.C157_modal_partial",
    "Vega.AmplitudesSpec.C157_default_false",
    "Vega.AmplitudesSpec.C157_several_false",
    "Vega.AmplitudesSpec.C157_later_false",
    "Vega.AmplitudesSpec.C157_missing_false"
   ],
   "note": "Proved: C157_tables, C157_modal_partial (method modal, one excitation in the first set of loads). False: without an option the method is auto, for which the response is modal but no table is made, so that the frequency dependence of every excitation is lost without a message (C157_default_false); of several excitations in the first set only the last table is used (C157_several_false); when only a later set has an excitation the response refers to table 0, which does not exist (C157_later_false); a missing table is dereferenced (C157_missing_false; in strict mode such an excitation is refused before). The interpolation in tables is that of Systus as generally known."
  },
  {
   "property": "C158",
   "status": "partial",
   "theorems": [
    "Vega.SlidesSpec.C158_cells_partial",
    "Vega.SlidesSpec.C158_measure",
    "Vega.SlidesSpec.C158_names",
    "Vega.SlidesSpec.C158_repeated_false",
    "Vega.SlidesSpec.C158_box_false",
    "Vega.SlidesSpec.C158_quadratic_false",
    "Vega.SlidesSpec.C158_empty_false"
   ],
   "note": "Proved: C158_cells_partial, C158_measure, C158_names. False: the face chosen is that whose box is nearest; a node in the box around an oblique face gets it however far the face is (C158_box_false); a slave node between several faces gets one cell for each, so that its contact counts several times (C158_repeated_false); faces of quadratic solids are refused (C158_quadratic_false); without master faces an empty result is read (C158_empty_false). The search of Boost is modelled by what it answers: any nearest value. Coordinates are exact."
  },
  {
   "property": "C159",
   "status": "proved",
   "theorems": [
    "Vega.OrientedSpec.C159_groups",
    "Vega.OrientedSpec.C159_accepted",
    "Vega.OrientedSpec.C159_orientation",
    "Vega.OrientedSpec.C159_taken",
    "Vega.OrientedSpec.C159_many"
   ],
   "note": "C159_groups, C159_accepted, C159_orientation. The translation is accepted for at most 9999999 systems when the names of the groups have an underscore, as those of all groups made by the readers of Nastran and Optistruct files; C159_taken and C159_many show what happens otherwise. The groups of nodes are groups without cells in the model. That cells of updateCell keep their groups is C15."
  },
  {
   "property": "C160",
   "status": "proved",
   "theorems": [
    "Vega.MatrixFilesSpec.C160_file",
    "Vega.MatrixFilesSpec.C160_unique",
    "Vega.MatrixFilesSpec.C160_coefficients",
    "Vega.MatrixFilesSpec.C160_names",
    "Vega.MatrixFilesSpec.C160_access",
    "Vega.MatrixFilesSpec.C160_table"
   ],
   "note": "C160_file, C160_unique, C160_coefficients, C160_names, C160_access, C160_table. The layout is the one the code writes; that Systus reads it so is not known from the repository (the code says that the meaning of several lines is not known). How numbers are printed is not modelled: with 15 digits a value is not always exact. Which number an element refers to is C116, with the case of springs where it is wrong (C116_files_false)."
  },
  {
   "property": "C161",
   "status": "partial",
   "theorems": [
    "Vega.LocalTableSpec.C161_partial",
    "Vega.LocalTableSpec.C161_none",
    "Vega.LocalTableSpec.C161_shared_false",
    "Vega.LocalTableSpec.C161_trusses_false",
    "Vega.LocalTableSpec.C161_solids"
   ],
   "note": "C161_partial, C161_none, C161_solids for cells that have an orientation of their own: each is asked for once, with its nodes and vector, and nothing else is. False otherwise: cells that share an orientation, as two beams between the same nodes with the same vector do, are in one group and are left out (C161_shared_false), and a model whose only such elements are trusses, with PARAM LGDISP, gets a command without any action (C161_trusses_false), since trusses have no orientation. The exception that the code makes there for models of solids alone is never met (C161_solids). What Code_Aster does with REPERE='LOCAL' and VECT_Y is not modelled."
  },
  {
   "property": "C162",
   "status": "partial",
   "theorems": [
    "Vega.NumbersSpec.C162_partial",
    "Vega.NumbersSpec.C162_set_false",
    "Vega.NumbersSpec.C162_confused_false",
    "Vega.NumbersSpec.C162_refused_false",
    "Vega.NumbersSpec.C162_nodes_false",
    "Vega.NumbersSpec.C162_list_false"
   ],
   "note": "C162_partial for files in which no set has the number of a property and no two sets have the same number, in any order of the cards. False otherwise, although Nastran numbers sets and properties independently (as generally known): the group of a property is looked for by number among all groups. After a set of elements, the property with its number applies to the elements of the set too (C162_set_false for every state, C162_confused_false a whole file); a set after an element of the property with its number is refused (C162_refused_false), and so are elements and properties after a set of nodes with their number (C162_nodes_false). A set that is only a list of numbers, as SET of the case control and SET1, prevents any SET3 with its number (C162_list_false; the case control is numbered apart, as generally known). Elements are kept by their numbers, and those of a set that are not in the mesh yet are left out; the material and the other data of a property are not in this model."
  },
  {
   "property": "C163",
   "status": "proved",
   "theorems": [
    "Vega.ConnectionSpec.C163_crigd1",
    "Vega.ConnectionSpec.C163_rbe2",
    "Vega.ConnectionSpec.C163_rbe3",
    "Vega.ConnectionSpec.C163_read",
    "Vega.ConnectionSpec.C163_range",
    "Vega.ConnectionSpec.C163_kept"
   ],
   "note": "C163_crigd1, C163_rbe2, C163_rbe3 say what an accepted card had in its fields, for all texts; C163_read that CRIGD1 cards in decimal notation are accepted, with or without the blank second field (for RBE2 and RBE3 that is C83). A range with THRU, which the manual of CRIGD1 has (as generally known), is refused (C163_range); outside strict mode it is reported, but the nodes before the range stay connected (C163_kept). Strict mode is what readBulk models."
  },
  {
   "property": "C164",
   "status": "partial",
   "theorems": [
    "Vega.SkinsSpec.C164_partial",
    "Vega.SkinsSpec.C164_slides",
    "Vega.SkinsSpec.C164_rotations_false",
    "Vega.SkinsSpec.C164_shells_false"
   ],
   "note": "C164_partial for zones whose nodes have no rotations, C164_slides for sliding surfaces in all models. False otherwise: the node with the lowest position in the first zone decides for the whole set. If it has rotations, because a beam or a shell is attached there, the skins of solids get ORIE_PEAU_2D (C164_rotations_false, for all sets of constraints); if it has none, surfaces of shells get ORIE_PEAU_3D (C164_shells_false). What the keywords do in Code_Aster is as generally known. That the bodies and surfaces exist is C133."
  },
  {
   "property": "C165",
   "status": "partial",
   "theorems": [
    "Vega.UnderSpec.C165_sound",
    "Vega.UnderSpec.C165_found",
    "Vega.UnderSpec.C165_only",
    "Vega.UnderSpec.C165_hexa20_false",
    "Vega.UnderSpec.C165_types_false"
   ],
   "note": "C165_sound (what is found is right, in every mesh), C165_found (exactly one of found and failed, for meshes whose solids have tables of faces), C165_only (the solid found is the one that has the nodes). False of the intended faces of quadratic hexahedra: the table of the second face has a node twice (C18), so nothing is found under the skin there (C165_hexa20_false, for every such cell); and a solid without a table ends the search (C165_types_false). The order of types and positions is a list in any order. The function is public but only called by the tests of the project."
  }
 ]
}