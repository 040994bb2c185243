{
 "claims": [
  {
   "property": "C01",
   "status": "proved",
   "theorems": [
    "Meshmode.C01_base_element_nrs",
    "Meshmode.C01_numbering_bijective",
    "Meshmode.C01_find_group_indices"
   ],
   "note": "Element counts as naturals; integer widths not modelled."
  },
  {
   "property": "C02",
   "status": "proved",
   "theorems": [
    "Meshmode.C02_facial_adjacency_symmetric",
    "Meshmode.C02_match_faces",
    "Meshmode.C02_row_order",
    "Meshmode.C02_face_vertices"
   ],
   "note": ""
  },
  {
   "property": "C03",
   "status": "proved",
   "theorems": [
    "Meshmode.C03_boundary_iff_no_partner",
    "Meshmode.C03_facial_adjacency_complete",
    "Meshmode.C03_three_sides_counterexample",
    "Meshmode.C03_neighbors_exact"
   ],
   "note": "The counterexample shows that the \"no three faces share one vertex set\" proviso is needed. C03_neighbors_exact says what happens without it."
  },
  {
   "property": "C05",
   "status": "partial",
   "theorems": [
    "Meshmode.C05_completion",
    "Meshmode.C05_user_tags",
    "Meshmode.C05_really_all",
    "Meshmode.C05_btag_all_exact",
    "Meshmode.C05_btag_all_partial",
    "Meshmode.C05_btag_all_counterexample"
   ],
   "note": "BTAG_REALLY_ALL and user tags in full. BTAG_ALL is exact when every boundary face of the group carries a tag, or when no tag is excluded; otherwise the code puts excluded faces into it (counterexample proved)."
  },
  {
   "property": "C06",
   "status": "proved",
   "theorems": [
    "Meshmode.C06_merge_union",
    "Meshmode.C06_merge_order_independent",
    "Meshmode.C06_boundary_order"
   ],
   "note": ""
  },
  {
   "property": "C08",
   "status": "proved",
   "theorems": [
    "Meshmode.C08_lazy_adjacency_history_independent",
    "Meshmode.C08_make_mesh_access"
   ],
   "note": "Exceptions of the computations are values; Mesh.__eq__ (documented to depend on cached fields) is not part of the claim."
  },
  {
   "property": "C04",
   "status": "proved",
   "theorems": [
    "Meshmode.C04_nodal_adjacency_is_vertex_sharing",
    "Meshmode.C04_nodal_adjacency_symmetric",
    "Meshmode.C04_nodal_adjacency_defined"
   ],
   "note": ""
  },
  {
   "property": "C07",
   "status": "proved",
   "theorems": [
    "Meshmode.C07_check_bc_coverage",
    "Meshmode.C07_applies_to_computed"
   ],
   "note": ""
  },
  {
   "property": "C09",
   "status": "proved",
   "theorems": [
    "Meshmode.C09_accepts_exactly_partitions",
    "Meshmode.C09_part_elements",
    "Meshmode.C09_partition_mesh"
   ],
   "note": "Element lists sorted, as documented."
  },
  {
   "property": "C10",
   "status": "proved",
   "theorems": [
    "Meshmode.C10_part_keeps_geometry"
   ],
   "note": ""
  },
  {
   "property": "C11",
   "status": "proved",
   "theorems": [
    "Meshmode.C11_part_internal_connectivity"
   ],
   "note": ""
  },
  {
   "property": "C12",
   "status": "proved",
   "theorems": [
    "Meshmode.C12_inter_part_exact",
    "Meshmode.C12_sides_agree"
   ],
   "note": ""
  },
  {
   "property": "C13",
   "status": "partial",
   "theorems": [
    "Meshmode.C13_part_boundary_partial",
    "Meshmode.C13_really_all_counterexample"
   ],
   "note": "The original boundary is kept exactly, for every tag; the inter-part faces are missing from BTAG_REALLY_ALL (counterexample proved)."
  },
  {
   "property": "C52",
   "status": "proved",
   "theorems": [
    "Meshmode.C52_is_boundary_tag_empty"
   ],
   "note": ""
  },
  {
   "property": "C14",
   "status": "partial",
   "theorems": [
    "Meshmode.C14_merge_elements",
    "Meshmode.C14_merge_facial_partial",
    "Meshmode.C14_merge_share_vertex",
    "Meshmode.C14_merge_nodal_rows_partial",
    "Meshmode.C14_merge_facial_available",
    "Meshmode.C14_adjacency_lost_counterexample",
    "Meshmode.C14_merge_defined",
    "Meshmode.C14_merge_conforming"
   ],
   "note": "Elements, connectivity and recomputed adjacency are exact; adjacency and boundary tags that an input already had (computed or supplied) are lost (counterexample proved)."
  },
  {
   "property": "C15",
   "status": "proved",
   "theorems": [
    "Meshmode.C15_split_elements_preserved",
    "Meshmode.C15_split_map_exact",
    "Meshmode.C15_split_defined",
    "Meshmode.C15_split_facial",
    "Meshmode.C15_split_access"
   ],
   "note": ""
  },
  {
   "property": "C16",
   "status": "partial",
   "theorems": [
    "Meshmode.C16_match_faces_partial",
    "Meshmode.C16_glue_adjacency_partial",
    "Meshmode.C16_glued_neighbors_partial",
    "Meshmode.C16_glued_face_still_boundary_counterexample",
    "Meshmode.C16_duplicates_rejected",
    "Meshmode.C16_glue_defined",
    "Meshmode.C16_match_defined"
   ],
   "note": "Matching and new adjacency are exact; glued faces stay in BTAG_ALL and BTAG_REALLY_ALL (counterexample proved)."
  },
  {
   "property": "C17",
   "status": "partial",
   "theorems": [
    "Meshmode.C17_transport_iff_partial",
    "Meshmode.C17_translations_transported_partial",
    "Meshmode.C17_scaling_transported_partial",
    "Meshmode.C17_affine_map_mesh_partial",
    "Meshmode.C17_disabled_adjacency_raises",
    "Meshmode.C17_not_transported_counterexample"
   ],
   "note": "The new adjacency map is right exactly when the linear parts commute and a matrix without offset fixes the translation (proved as an equivalence, so all translations are fine); counterexamples otherwise."
  },
  {
   "property": "C18",
   "status": "partial",
   "theorems": [
    "Meshmode.C18_missing_parts",
    "Meshmode.C18_inverted_undoes",
    "Meshmode.C18_inverted_defined",
    "Meshmode.C18_eq_structural_partial",
    "Meshmode.C18_eq_raises_counterexample"
   ],
   "note": "Call and inverse are exact; equality is structural when the same parts are present, and raises otherwise from dimension two (counterexample proved)."
  },
  {
   "property": "C53",
   "status": "proved",
   "theorems": [
    "Meshmode.C53_map_mesh"
   ],
   "note": ""
  },
  {
   "property": "C19",
   "status": "partial",
   "theorems": [
    "Meshmode.C19_new_vertices_partial",
    "Meshmode.C19_history_partial",
    "Meshmode.C19_conforming_flag",
    "Meshmode.C19_two_groups_counterexample",
    "Meshmode.C19_hexahedra_counterexample"
   ],
   "note": "Holds for refinements whose flagged elements are in one group. With two groups the numbers collide (counterexample); on hexahedra a face centre may get two vertices (counterexample)."
  },
  {
   "property": "C20",
   "status": "proved",
   "theorems": [
    "Meshmode.C20_refine_elements",
    "Meshmode.C20_history",
    "Meshmode.C20_connection_batches"
   ],
   "note": ""
  },
  {
   "property": "C22",
   "status": "proved",
   "theorems": [
    "Meshmode.C22_call_eq_matrix",
    "Meshmode.C22_no_matrix",
    "Meshmode.C22_repeated_target_counterexample",
    "Meshmode.C22_no_matrix_counterexample"
   ],
   "note": "Exact arithmetic over a commutative ring. A batch that sets a target element twice is outside the property (counterexample); without any batch the code returns the number 0 instead of a matrix."
  },
  {
   "property": "C23",
   "status": "proved",
   "theorems": [
    "Meshmode.C23_value",
    "Meshmode.C23_pick_path_eq",
    "Meshmode.C23_defined",
    "Meshmode.C23_evaluates",
    "Meshmode.C23_evaluates_few"
   ],
   "note": "Pick lists are taken to be sound for the resampling matrix (in the code up to rounding)."
  },
  {
   "property": "C24",
   "status": "proved",
   "theorems": [
    "Meshmode.C24_direct_linear",
    "Meshmode.C24_direct_zero",
    "Meshmode.C24_linear",
    "Meshmode.C24_zero"
   ],
   "note": ""
  },
  {
   "property": "C25",
   "status": "partial",
   "theorems": [
    "Meshmode.C25_call",
    "Meshmode.C25_attributes",
    "Meshmode.C25_matrix",
    "Meshmode.C25_matrix_product",
    "Meshmode.C25_broken_chain_counterexample",
    "Meshmode.C25_ident"
   ],
   "note": "All but the last clause is proved; the code does not reject a broken chain when it is made (counterexample)."
  },
  {
   "property": "C26",
   "status": "partial",
   "theorems": [
    "Meshmode.C26_flatten_partial",
    "Meshmode.C26_product_groups",
    "Meshmode.C26_identities",
    "Meshmode.C26_groups_counterexample",
    "Meshmode.C26_middle_counterexample",
    "Meshmode.C26_repeated_counterexample"
   ],
   "note": "Nested chains of any length, one group per discretization and every target element set at most once; with several groups, with elements set twice, or with identities only, flattening does not preserve the effect, as shown by the counterexamples."
  },
  {
   "property": "C31",
   "status": "proved",
   "theorems": [
    "Meshmode.C31_order_independent",
    "Meshmode.C31_done",
    "Meshmode.C31_reported_once",
    "Meshmode.C31_inbox_expected",
    "Meshmode.C31_all_ranks",
    "Meshmode.C31_only_expected",
    "Meshmode.C31_ok_iff",
    "Meshmode.C31_old_interface"
   ],
   "note": "make_partition_connection is a parameter; any number of ranks, any order of arrival."
  },
  {
   "property": "C32",
   "status": "partial",
   "theorems": [
    "Meshmode.C32_receives_iff_partial",
    "Meshmode.C32_messages",
    "Meshmode.C32_empty_part_counterexample"
   ],
   "note": "A rank gets its part exactly when some element is in it; for a part without elements nothing is sent and the rank waits forever (counterexample)."
  },
  {
   "property": "C33",
   "status": "proved",
   "theorems": [
    "Meshmode.C33_keys",
    "Meshmode.C33_entries",
    "Meshmode.C33_cover",
    "Meshmode.C33_partition"
   ],
   "note": ""
  },
  {
   "property": "C34",
   "status": "proved",
   "theorems": [
    "Meshmode.C34_valid",
    "Meshmode.C34_rows",
    "Meshmode.C34_defined",
    "Meshmode.C34_nodal"
   ],
   "note": "The order within a row is left open, as np.argsort is not stable by default; without any interior adjacency group the code raises (C34_defined)."
  },
  {
   "property": "C46",
   "status": "proved",
   "theorems": [
    "Meshmode.C46_remove_unused",
    "Meshmode.C46_sharing",
    "Meshmode.C46_all_used",
    "Meshmode.C46_idempotent",
    "Meshmode.C46_defined"
   ],
   "note": ""
  },
  {
   "property": "C50",
   "status": "partial",
   "theorems": [
    "Meshmode.C50_indices",
    "Meshmode.C50_grid_partial",
    "Meshmode.C50_relative",
    "Meshmode.C50_defined",
    "Meshmode.C50_shifted_counterexample",
    "Meshmode.C50_default_place",
    "Meshmode.C50_default_gap"
   ],
   "note": "One copy per multi-index, rightly placed relative to one another, but the whole grid is moved by offset[0] (counterexample)."
  },
  {
   "property": "C45",
   "status": "proved",
   "theorems": [
    "Meshmode.C45_defined",
    "Meshmode.C45_flags",
    "Meshmode.C45_vertex_sets",
    "Meshmode.C45_simplex_row",
    "Meshmode.C45_twice",
    "Meshmode.C45_twice_defined",
    "Meshmode.C45_simplex_orientation",
    "Meshmode.C45_same_geometry",
    "Meshmode.C45_matrix_involution",
    "Meshmode.C45_tensor_flip_det",
    "Meshmode.C45_adjacency"
   ],
   "note": "Exact arithmetic; the reference flip and function space come from modepy. The old mesh's adjacency (with any boundary tags) is not carried over (C45_adjacency)."
  },
  {
   "property": "C35",
   "status": "proved",
   "theorems": [
    "Meshmode.C35_flat",
    "Meshmode.C35_default",
    "Meshmode.C35_regroup",
    "Meshmode.C35_zeros",
    "Meshmode.C35_defined",
    "Meshmode.C35_empty_group_counterexample"
   ],
   "note": "Exact real arithmetic. With ord=inf and an empty part numpy raises (C35_empty_group_counterexample), so that case is excluded."
  },
  {
   "property": "C36",
   "status": "proved",
   "theorems": [
    "Meshmode.C36_restored",
    "Meshmode.C36_scoped",
    "Meshmode.C36_threads",
    "Meshmode.C36_all_schedules"
   ],
   "note": ""
  },
  {
   "property": "C37",
   "status": "partial",
   "theorems": [
    "Meshmode.C37_round_trip_partial",
    "Meshmode.C37_context_independent",
    "Meshmode.C37_data_independent",
    "Meshmode.C37_no_context",
    "Meshmode.C37_legacy",
    "Meshmode.C37_frozen_counterexample"
   ],
   "note": "Arrays with a context round-trip; frozen arrays cannot be pickled at all (counterexample)."
  },
  {
   "property": "C38",
   "status": "proved",
   "theorems": [
    "Meshmode.C38_exact",
    "Meshmode.C38_named_group"
   ],
   "note": ""
  },
  {
   "property": "C39",
   "status": "proved",
   "theorems": [
    "Meshmode.C39_value",
    "Meshmode.C39_cache_irrelevant",
    "Meshmode.C39_axis_order",
    "Meshmode.C39_given_order",
    "Meshmode.C39_matrices_commute",
    "Meshmode.C39_defined"
   ],
   "note": "For groups whose discretization_key exists and determines their matrices (KeysSound); exact arithmetic."
  },
  {
   "property": "C40",
   "status": "proved",
   "theorems": [
    "Meshmode.C40_type_map",
    "Meshmode.C40_type_map_rejects",
    "Meshmode.C40_order_based",
    "Meshmode.C40_further_arguments",
    "Meshmode.C40_library",
    "Meshmode.C40_no_default_nodes",
    "Meshmode.C40_classes",
    "Meshmode.C40_edge_clustered",
    "Meshmode.C40_default_simplex"
   ],
   "note": "Callables other than the library's factories are not modelled."
  },
  {
   "property": "C42",
   "status": "partial",
   "theorems": [
    "Meshmode.C42_nth_write",
    "Meshmode.C42_repeat_partial",
    "Meshmode.C42_twice_iff",
    "Meshmode.C42_twice_counterexample"
   ],
   "note": "The memoized node array is shrunk in place: the n-th write has the nodes shrunk by the n-th power of the factor. Proved for factor 1 and for first writes; counterexample otherwise. Exact arithmetic."
  },
  {
   "property": "C51",
   "status": "partial",
   "theorems": [
    "Meshmode.C51_curve",
    "Meshmode.C51_curve_defined",
    "Meshmode.C51_curve_geometry",
    "Meshmode.C51_closed",
    "Meshmode.C51_torus_elements",
    "Meshmode.C51_torus_counts",
    "Meshmode.C51_torus_vertices",
    "Meshmode.C51_torus_grid",
    "Meshmode.C51_major_cycle",
    "Meshmode.C51_minor_cycle_diagonal",
    "Meshmode.C51_minor_cycle_partial",
    "Meshmode.C51_minor_cycle_counterexample"
   ],
   "note": "All but the minor cycle of the torus, whose vertex numbers are wrong (they run along the diagonal and may be out of range)."
  },
  {
   "property": "C43",
   "status": "proved",
   "theorems": [
    "Meshmode.C43_cells",
    "Meshmode.C43_flat",
    "Meshmode.C43_own_element",
    "Meshmode.C43_disjoint",
    "Meshmode.C43_cell_types",
    "Meshmode.C43_lagrange",
    "Meshmode.C43_hypercube",
    "Meshmode.C43_hypercube_order",
    "Meshmode.C43_order_zero_counterexample"
   ],
   "note": "Element connectivity of simplices and the Lagrange permutations come from modepy and pyvisfile (assumed to have valid node numbers). Order zero excluded: cell types without cells (C43_order_zero_counterexample)."
  },
  {
   "property": "C48",
   "status": "partial",
   "theorems": [
    "Meshmode.C48_sides_partial",
    "Meshmode.C48_right_iff",
    "Meshmode.C48_counterexample",
    "Meshmode.C48_no_facets",
    "Meshmode.C48_face_map",
    "Meshmode.C48_restrict_partial"
   ],
   "note": "The element and neighbour columns are ordered differently: the rows pair the right cells exactly when there is one interior facet; without interior facets the import fails."
  },
  {
   "property": "C27",
   "status": "proved",
   "theorems": [
    "Meshmode.C27_elements",
    "Meshmode.C27_batches",
    "Meshmode.C27_targets",
    "Meshmode.C27_group_count",
    "Meshmode.C27_all_numbers",
    "Meshmode.C27_requested",
    "Meshmode.C27_defined",
    "Meshmode.C27_vertices",
    "Meshmode.C27_value"
   ],
   "note": "Resampling of nodes to a face is a parameter."
  },
  {
   "property": "C28",
   "status": "proved",
   "theorems": [
    "Meshmode.C28_embedding",
    "Meshmode.C28_sum",
    "Meshmode.C28_not_surjective",
    "Meshmode.faceEmbedding_batches"
   ],
   "note": "Resampling of an element's own nodes is taken as the identity; at least two faces per element."
  },
  {
   "property": "C30",
   "status": "proved",
   "theorems": [
    "Meshmode.C30_batches",
    "Meshmode.C30_rounds",
    "Meshmode.C30_index_arrays",
    "Meshmode.C30_matching",
    "Meshmode.C30_nan_counterexample",
    "Meshmode.C30_template"
   ],
   "note": "Closeness is any reflexive relation; the counterexample shows that without reflexivity (NaN nodes) the loop never ends."
  },
  {
   "property": "C49",
   "status": "proved",
   "theorems": [
    "Meshmode.C49_round_trip",
    "Meshmode.C49_reverse_round_trip",
    "Meshmode.C49_unmapped",
    "Meshmode.C49_values",
    "Meshmode.C49_constructor",
    "Meshmode.C49_reorder"
   ],
   "note": "One component at a time; Firedrake node numbers valid."
  },
  {
   "property": "C29",
   "status": "proved",
   "theorems": [
    "Meshmode.C29_opposite",
    "Meshmode.C29_involution",
    "Meshmode.C29_computed_adjacency",
    "Meshmode.C29_all_faces_counterexample",
    "Meshmode.C29_moves"
   ],
   "note": "For the interior face restriction with one boundary group per volume group. Finding the reference nodes is a parameter here; see C95. The counterexample: for the restriction to all faces the connection reports is_surjective although boundary elements without neighbour stay unset."
  },
  {
   "property": "C54",
   "status": "proved",
   "theorems": [
    "Meshmode.C54_partition_connection",
    "Meshmode.C54_moves"
   ],
   "note": "Finding the reference nodes is a parameter here; see C95."
  },
  {
   "property": "C41",
   "status": "partial",
   "theorems": [
    "Meshmode.C41_reversed",
    "Meshmode.C41_defined",
    "Meshmode.C41_chain_left_inverse",
    "Meshmode.C41_list_left_inverse",
    "Meshmode.C41_groups_partial",
    "Meshmode.C41_direct_left_inverse_partial",
    "Meshmode.C41_groups_counterexample"
   ],
   "note": "Chains are proved in full. For a direct connection the code reads and writes the groups the wrong way round, so the group statement holds only when every batch reads the group with the number of its target group (counterexample proved); under that condition and exact quadrature the inverse is a left inverse."
  },
  {
   "property": "C44",
   "status": "partial",
   "theorems": [
    "Meshmode.C44_mapping",
    "Meshmode.C44_small",
    "Meshmode.C44_permutation",
    "Meshmode.C44_permutation_partial",
    "Meshmode.C44_permutation_counterexample",
    "Meshmode.C44_recursion_counterexample",
    "Meshmode.C44_raises_counterexample",
    "Meshmode.C44_dim_zero_counterexample"
   ],
   "note": "Soundness and completeness are proved whenever the call returns, for every recursion depth, in exact arithmetic. Proved exceptions: many coincident points never end the recursion, a half without target points raises instead of giving -1, dimension zero ignores the number of sources, and coincident targets give indices that are no permutation."
  },
  {
   "property": "C47",
   "status": "partial",
   "theorems": [
    "Meshmode.C47_tags",
    "Meshmode.C47_tags_defined",
    "Meshmode.C47_faces_partial",
    "Meshmode.C47_facial_defined",
    "Meshmode.C47_groups",
    "Meshmode.C47_elements",
    "Meshmode.C47_interior_face_counterexample",
    "Meshmode.C47_mixed_mesh_counterexample",
    "Meshmode.C47_same_number_counterexample",
    "Meshmode.C47_listed_twice_counterexample",
    "Meshmode.C47_arrangement"
   ],
   "note": "Element groups and tag maps are exact. Face tags are exact on the boundary of conforming inputs; marks on interior faces and on three-dimensional meshes with two element types are lost, and gmsh numbers used in two dimensions cannot be read (counterexamples proved)."
  },
  {
   "property": "C21",
   "status": "proved",
   "theorems": [
    "Meshmode.C21_defined",
    "Meshmode.C21_numbering",
    "Meshmode.C21_vertices",
    "Meshmode.C21_elements",
    "Meshmode.C21_faces",
    "Meshmode.C21_tags",
    "Meshmode.C21_cover",
    "Meshmode.C21_disjoint",
    "Meshmode.C21_inside"
   ],
   "note": "generate_box_mesh in dimensions 1 to 3, all axis lengths, tensor-product, simplex and \"X\" meshes: vertex numbering and coordinates, valid distinct vertices, at most two elements per face and exactly one on the sides, tags denote exactly the faces of their sides, the elements cover the box and do not overlap (exact arithmetic, strictly increasing coordinates). The periodic branch is not modelled (gluing is C16)."
  },
  {
   "property": "C55",
   "status": "partial",
   "theorems": [
    "Meshmode.C55_orientation_exact",
    "Meshmode.C55_orientations",
    "Meshmode.C55_flip_reverses",
    "Meshmode.simplex_affine",
    "Meshmode.C55_force_positive_partial",
    "Meshmode.C55_force_positive_exact",
    "Meshmode.C55_adjacency",
    "Meshmode.C55_not_affine_counterexample",
    "Meshmode.C55_adjacency_counterexample",
    "Meshmode.C55_four_dimensions_counterexample"
   ],
   "note": "Everything but the last sentence is proved (exact arithmetic, consistency checks of nodes and data types left out). Adjacency passed in is dropped (proved). A quadrilateral with a reflex first corner makes the call raise, and in dimension four the reported sign is reversed (proved)."
  },
  {
   "property": "C56",
   "status": "partial",
   "theorems": [
    "Meshmode.C56_accepts_iff",
    "Meshmode.C56_is_consistent",
    "Meshmode.C56_vertices_error",
    "Meshmode.C56_affine_positive",
    "Meshmode.C56_no_vertices_counterexample",
    "Meshmode.C56_inter_part_counterexample",
    "Meshmode.C56_elements_type_counterexample",
    "Meshmode.C56_empty_facial_counterexample"
   ],
   "note": "The exact condition is proved; it does not include the neighbour arrays of inter-part groups, the type of `elements`, or a missing (empty) list of adjacency groups, and volume meshes without vertices raise ValueError (counterexamples)."
  },
  {
   "property": "C57",
   "status": "partial",
   "theorems": [
    "Meshmode.C57_equal_iff",
    "Meshmode.C57_defined_partial",
    "Meshmode.C57_reflexive",
    "Meshmode.C57_face_type_counterexample",
    "Meshmode.C57_raises_counterexample",
    "Meshmode.C57_history_counterexample"
   ],
   "note": "Every answer is proved right except that face_id_dtype is not compared; the comparison can raise when affine maps have different parts (counterexamples)."
  },
  {
   "property": "C58",
   "status": "proved",
   "theorems": [
    "Meshmode.C58_rotation_matrix",
    "Meshmode.C58_composition",
    "Meshmode.C58_rotate_plane",
    "Meshmode.C58_rotate_space",
    "Meshmode.C58_isometry",
    "Meshmode.C58_periodic",
    "Meshmode.C58_defined"
   ],
   "note": "Real numbers for floating point. A mesh with disabled facial adjacency is refused (C58_defined)."
  },
  {
   "property": "C59",
   "status": "partial",
   "theorems": [
    "Meshmode.C59_box",
    "Meshmode.C59_straight_partial",
    "Meshmode.C59_errors",
    "Meshmode.C59_curved_counterexample"
   ],
   "note": "The box is that of the vertices; it contains all straight-sided elements, but curved elements can leave it (counterexample)."
  },
  {
   "property": "C60",
   "status": "partial",
   "theorems": [
    "Meshmode.C60_neighbors",
    "Meshmode.C60_count",
    "Meshmode.C60_tags_partial",
    "Meshmode.C60_really_all_counterexample",
    "Meshmode.C60_empty_counterexample",
    "Meshmode.C60_decreasing_counterexample"
   ],
   "note": "Everything except the last clause, which is false: faces on periodic sides stay in BTAG_REALLY_ALL (C60_really_all_counterexample gives exactly which faces are listed). Exact arithmetic; the point matching is a parameter that finds the points within the tolerance (compare C44). Empty axes and decreasing coordinates raise (counterexamples)."
  },
  {
   "property": "C61",
   "status": "partial",
   "theorems": [
    "Meshmode.C61_constructor",
    "Meshmode.C61_constructor_back",
    "Meshmode.C61_cache_irrelevant",
    "Meshmode.C61_modal_to_nodal",
    "Meshmode.C61_interpolant",
    "Meshmode.C61_projection",
    "Meshmode.C61_exact_rule",
    "Meshmode.C61_modal_round_trip",
    "Meshmode.C61_nodal_round_trip",
    "Meshmode.C61_inexact_refused",
    "Meshmode.C61_no_key",
    "Meshmode.C61_order_counterexample"
   ],
   "note": "Everything but the last sentence, which is false: interpolatory groups are converted with their own basis whatever the modal group is (C61_order_counterexample). la.inv is a parameter returning inverses, arithmetic is exact, DOFArrays only. Groups with given nodes have no key and cannot be converted (C61_no_key)."
  },
  {
   "property": "C62",
   "status": "proved",
   "theorems": [
    "Meshmode.C62_constructor",
    "Meshmode.C62_exact",
    "Meshmode.C62_interpolant",
    "Meshmode.C62_defined",
    "Meshmode.C62_raises",
    "Meshmode.C62_round_trip",
    "Meshmode.C62_down_up"
   ],
   "note": "find_point_to_point_mapping and mp.resampling_matrix are parameters: points found are equal points, and the matrix takes values to values of the interpolant. Exact arithmetic."
  },
  {
   "property": "C63",
   "status": "proved",
   "theorems": [
    "Meshmode.C63_constructor",
    "Meshmode.C63_covered",
    "Meshmode.C63_exact",
    "Meshmode.C63_defined",
    "Meshmode.C63_map_unique",
    "Meshmode.C63_after_refine"
   ],
   "note": "find_point_to_point_mapping and mp.resampling_matrix are parameters as for C62, children and reference vertices of the tessellation are given (modepy). Exact arithmetic."
  },
  {
   "property": "C64",
   "status": "proved",
   "theorems": [
    "Meshmode.C64_child_nodes",
    "Meshmode.C64_discr_nodes",
    "Meshmode.C64_same_surface",
    "Meshmode.C64_same_point"
   ],
   "note": "Same parameters as C63; the space is assumed closed under the maps to the children, as polynomial spaces are. Exact arithmetic."
  },
  {
   "property": "C65",
   "status": "partial",
   "theorems": [
    "Meshmode.C65_recreates_iff",
    "Meshmode.C65_recreates_partial",
    "Meshmode.C65_made_normal",
    "Meshmode.C65_raises",
    "Meshmode.C65_result",
    "Meshmode.C65_string_tag_counterexample",
    "Meshmode.C65_empty_group_counterexample",
    "Meshmode.C65_face_id_counterexample",
    "Meshmode.C65_other_tag_counterexample"
   ],
   "note": "Exact condition proved. Missing: meshes with stored adjacency for tags other than BTAG_NONE, BTAG_ALL, BTAG_REALLY_ALL are not recreated (strings are printed without quotes, BTAG_PARTITION and others are not imported), arrays lose axes after an axis of length zero, the type of face numbers is lost. The text is modelled by its syntax tree; the meaning of names and number literals is a parameter."
  },
  {
   "property": "C66",
   "status": "partial",
   "theorems": [
    "Meshmode.C66_rotation",
    "Meshmode.C66_pole",
    "Meshmode.C66_dimension",
    "Meshmode.C66_every_rotation",
    "Meshmode.C66_deflection_zero_counterexample"
   ],
   "note": "Missing: for deflection zero the matrix is a half turn and not the identity as documented. Real numbers instead of floating point."
  },
  {
   "property": "C67",
   "status": "proved",
   "theorems": [
    "Meshmode.C67_element_map",
    "Meshmode.C67_true_iff",
    "Meshmode.C67_affine",
    "Meshmode.C67_not_affine",
    "Meshmode.C67_exact",
    "Meshmode.C67_empty",
    "Meshmode.C67_points_counterexample",
    "Meshmode.C67_tensor_counterexample"
   ],
   "note": "Simplices of dimension at least one, exact arithmetic (no tolerance for rounding); the inverse Vandermonde matrix and the differentiation matrices are parameters. Groups of points raise an exception and tensor product groups always say False, also proved."
  },
  {
   "property": "C68",
   "status": "partial",
   "theorems": [
    "Meshmode.C68_elementwise_partial",
    "Meshmode.C68_number_partial",
    "Meshmode.C68_refused",
    "Meshmode.C68_frame",
    "Meshmode.C68_copy",
    "Meshmode.C68_fill",
    "Meshmode.C68_immutable_counterexample",
    "Meshmode.C68_not_atomic_counterexample",
    "Meshmode.C68_aliasing_counterexample"
   ],
   "note": "Missing: arrays that do not work in place are not changed at all (results are dropped), groups of the right hand side that are earlier groups of x are read after their change, a later group of another size leaves earlier groups changed. Arrays are flat lists without broadcasting."
  },
  {
   "property": "C69",
   "status": "proved",
   "theorems": [
    "Meshmode.C69_exact",
    "Meshmode.C69_defined",
    "Meshmode.C69_partition",
    "Meshmode.C69_symmetric"
   ],
   "note": "Symmetry and the characterization are for parts of partition_mesh."
  },
  {
   "property": "C70",
   "status": "proved",
   "theorems": [
    "Meshmode.C70_leaves",
    "Meshmode.C70_raises",
    "Meshmode.C70_shape",
    "Meshmode.C70_functor",
    "Meshmode.C70_round_trip",
    "Meshmode.C70_deserialize",
    "Meshmode.C70_construct",
    "Meshmode.C70_with_actx"
   ],
   "note": "Checks are those of debug mode; under python -O items out of sequence are accepted. Containers other than DOF arrays follow the rules of arraycontext."
  },
  {
   "property": "C71",
   "status": "proved",
   "theorems": [
    "Meshmode.C71_simplex",
    "Meshmode.C71_tensor",
    "Meshmode.C71_solvable",
    "Meshmode.C71_succeeds"
   ],
   "note": "Exact arithmetic; la.solve is a parameter that returns solutions, unit nodes are given, vertex arrays have one shape."
  },
  {
   "property": "C72",
   "status": "proved",
   "theorems": [
    "Meshmode.C72_order",
    "Meshmode.C72_vertices",
    "Meshmode.C72_closed",
    "Meshmode.C72_regular",
    "Meshmode.C72_planes",
    "Meshmode.C72_sphere",
    "Meshmode.C72_sphere_unrefined",
    "Meshmode.C72_cube",
    "Meshmode.C72_cube_sphere",
    "Meshmode.C72_elements"
   ],
   "note": "Real numbers. Refinement is a parameter that keeps vertices and nodes in the planes of the elements; nothing is assumed without refinement of the icosahedron. Corners and faces of the cube come from modepy."
  },
  {
   "property": "C73",
   "status": "partial",
   "theorems": [
    "Meshmode.C73_vertex",
    "Meshmode.C73_tris",
    "Meshmode.C73_conforming",
    "Meshmode.C73_ensure_radius",
    "Meshmode.C73_on_surface_iff",
    "Meshmode.C73_vertices_partial",
    "Meshmode.C73_orientation_counterexample",
    "Meshmode.C73_vertex_counterexample",
    "Meshmode.C73_node_counterexample"
   ],
   "note": "Numbering, incidence and the vertices before ensure_radius are as stated. Not so: ensure_radius divides by the square of the distance, so a point ends on the surface iff its distance from the axis was one; vertices end at distance one unless the radius is one, interior nodes of the elements are off the surface. The triangles of a cell are not consistently oriented."
  },
  {
   "property": "C74",
   "status": "proved",
   "theorems": [
    "Meshmode.C74_defined",
    "Meshmode.C74_elements",
    "Meshmode.C74_points",
    "Meshmode.C74_mesh",
    "Meshmode.C21_inside",
    "Meshmode.C74_dimension_counterexample"
   ],
   "note": "Exact arithmetic (linspace gives equally spaced points). The counterexample shows why a, b and the sizes must have equal length: the default corners with three sizes silently give a two-dimensional mesh."
  },
  {
   "property": "C75",
   "status": "proved",
   "theorems": [
    "Meshmode.C75_warp_arguments",
    "Meshmode.C75_warp_injective",
    "Meshmode.C75_warp_oriented",
    "Meshmode.C75_slice_injective",
    "Meshmode.C75_slice_image",
    "Meshmode.C75_slice_sides",
    "Meshmode.C75_slice_glue",
    "Meshmode.C75_slice_oriented"
   ],
   "note": "Real numbers. The maps are applied to the nodes by map_mesh (C53); polynomial elements only interpolate them."
  },
  {
   "property": "C76",
   "status": "proved",
   "theorems": [
    "Meshmode.C76_defined",
    "Meshmode.C76_sound",
    "Meshmode.C76_complete",
    "Meshmode.C76_names",
    "Meshmode.C76_mixed_iff",
    "Meshmode.C76_by_group",
    "Meshmode.C76_names_counterexample",
    "Meshmode.C76_mixed_counterexample"
   ],
   "note": "Object arrays with one axis of numbers and DOF arrays. Outside the quantifier: C76_mixed_iff says exactly when complex arrays reach the file (real first component, complex later one); names collide in C76_names_counterexample."
  },
  {
   "property": "C77",
   "status": "partial",
   "theorems": [
    "Meshmode.C77_file",
    "Meshmode.C77_round_trip",
    "Meshmode.C77_local_defined",
    "Meshmode.C77_local",
    "Meshmode.C77_padding",
    "Meshmode.C77_options_iff",
    "Meshmode.C77_triangle_counterexample",
    "Meshmode.C77_empty_counterexample",
    "Meshmode.C77_options_counterexample",
    "Meshmode.C77_overwrite_counterexample"
   ],
   "note": "Everything about the contents is proved whenever writing succeeds; C77_local_defined says exactly when it does: not for a rank without cells or whose connectivity has three entries (one linear triangle). The options of the caller are changed and overwrite is ignored."
  },
  {
   "property": "C78",
   "status": "proved",
   "theorems": [
    "Meshmode.C78_group_digits",
    "Meshmode.C78_topology",
    "Meshmode.C78_group_names",
    "Meshmode.C78_cells",
    "Meshmode.C78_points",
    "Meshmode.C78_fields_sound",
    "Meshmode.C78_fields_complete",
    "Meshmode.C78_defined",
    "Meshmode.C78_file",
    "Meshmode.C78_overwrite_counterexample",
    "Meshmode.C78_empty_group_counterexample"
   ],
   "note": "HDF5 group contents; attrs, data set options and the XML file are left out. A field called Nodes or Connectivity, or colliding names, raise after the file was truncated (C78_file, C78_overwrite_counterexample); overwrite is ignored."
  },
  {
   "property": "C79",
   "status": "proved",
   "theorems": [
    "Meshmode.C79_names",
    "Meshmode.C79_parallel",
    "Meshmode.C79_finishes",
    "Meshmode.C79_no_overwrite",
    "Meshmode.C79_default_name",
    "Meshmode.C79_relative_names",
    "Meshmode.C79_same_name_counterexample",
    "Meshmode.C79_no_manifest_counterexample"
   ],
   "note": "Looking for and writing a file are atomic steps of a rank, taken in any order. os.path.relpath on normalized absolute paths. Patterns giving one name for several ranks are excluded (C79_same_name_counterexample)."
  },
  {
   "property": "C80",
   "status": "proved",
   "theorems": [
    "Meshmode.C80_vertex_indices",
    "Meshmode.C80_multiplicity",
    "Meshmode.C80_neighbors",
    "Meshmode.C80_rows",
    "Meshmode.C80_symmetric",
    "Meshmode.C80_defined",
    "Meshmode.C80_repeated"
   ],
   "note": "The nodal adjacency repeats an element for every shared vertex (C80_multiplicity, C80_repeated), unlike the one meshmode computes itself."
  },
  {
   "property": "C81",
   "status": "partial",
   "theorems": [
    "Meshmode.C81_geometry",
    "Meshmode.C81_face_flip",
    "Meshmode.C81_faces",
    "Meshmode.C81_surface_orient",
    "Meshmode.C81_firedrake_data_iff",
    "Meshmode.C81_curves",
    "Meshmode.C81_defined",
    "Meshmode.C81_firedrake_data_counterexample"
   ],
   "note": "Proved whenever importing succeeds; C81_defined says exactly when it does. No curve in the plane can be imported (C81_curves), and importing a surface writes into Firedrake's cell orientations (C81_firedrake_data_iff, C81_firedrake_data_counterexample). The signs of volume elements are a parameter, see C45."
  },
  {
   "property": "C82",
   "status": "proved",
   "theorems": [
    "Meshmode.C82_select",
    "Meshmode.C82_select_errors",
    "Meshmode.C82_cells",
    "Meshmode.C82_cells_defined",
    "Meshmode.C82_dictionary",
    "Meshmode.C82_permutations",
    "Meshmode.C82_defined",
    "Meshmode.C82_documented_iff",
    "Meshmode.C82_documented_counterexample",
    "Meshmode.C82_nodes",
    "Meshmode.C82_geometry",
    "Meshmode.C82_vertices",
    "Meshmode.C82_stored_iff",
    "Meshmode.C82_inverse",
    "Meshmode.C82_connection",
    "Meshmode.C82_discontinuous_counterexample"
   ],
   "note": "Firedrake is a parameter returning the given cells with vertices in any order. The permutations are the inverses of what the docstring says (C82_documented_iff, C82_documented_counterexample); the code uses them consistently. The mesh type check, communicators and building of function spaces are not modelled; rounding is any function fixing 0 and 1."
  },
  {
   "property": "C83",
   "status": "proved",
   "theorems": [
    "Meshmode.C83_formula",
    "Meshmode.C83_reference",
    "Meshmode.C83_inverse",
    "Meshmode.C83_solve_iff",
    "Meshmode.C83_checks",
    "Meshmode.C83_cells",
    "Meshmode.C83_cells_vertices",
    "Meshmode.C83_restrict",
    "Meshmode.C83_connection",
    "Meshmode.C83_cells_counterexample",
    "Meshmode.C83_flip"
   ],
   "note": "With discontinuous coordinates cells are missed (C83_cells_counterexample). la.solve is used with the factors in the wrong order, which is right exactly because the matrices commute (C83_solve_iff). Loading of Firedrake and types of function spaces are not modelled."
  },
  {
   "property": "C84",
   "status": "partial",
   "theorems": [
    "Meshmode.C84_ellipse",
    "Meshmode.C84_circle",
    "Meshmode.C84_closed",
    "Meshmode.C84_simple",
    "Meshmode.C84_symmetric",
    "Meshmode.C84_apple",
    "Meshmode.C84_dumbbell",
    "Meshmode.C84_dumbbell_plain",
    "Meshmode.C84_wobbly",
    "Meshmode.C84_random",
    "Meshmode.C84_starfish",
    "Meshmode.C84_starfish_random",
    "Meshmode.C84_clamp_partial",
    "Meshmode.C84_clamp_counterexample",
    "Meshmode.C84_ngon_counterexample"
   ],
   "note": "All but n_gon, which always raises an exception because of its indexing (C84_ngon_counterexample, from the shapes of numpy arrays), and clamps with half angles of at least pi, which pass the assertions but divide by zero or have breakpoints out of order (C84_clamp_counterexample). Exact real arithmetic, one parameter at a time."
  },
  {
   "property": "C85",
   "status": "partial",
   "theorems": [
    "Meshmode.C85_torus_equation",
    "Meshmode.C85_torus_onto",
    "Meshmode.C85_torus_mesh",
    "Meshmode.C85_cruller_mesh",
    "Meshmode.C85_documented_partial",
    "Meshmode.C85_documented_counterexample"
   ],
   "note": "The documented second coordinate has sin(v) for cos(v): it agrees with the code exactly where sin u = 0 or cos v = sin v (C85_documented_partial), and its points are not on the torus (C85_documented_counterexample). The rest is proved, in exact real arithmetic."
  },
  {
   "property": "C86",
   "status": "partial",
   "theorems": [
    "Meshmode.C86_resolved_partial",
    "Meshmode.C86_descend",
    "Meshmode.C86_unchanged",
    "Meshmode.C86_nonfinite",
    "Meshmode.C86_zero_coordinate",
    "Meshmode.C86_resolved_counterexample"
   ],
   "note": "Except for elements with a coordinate function that vanishes (as for surfaces in a coordinate plane): their estimate is NaN and they are never refined (C86_zero_coordinate, C86_resolved_counterexample). Nothing is said about termination. Matrices from modepy are given; finite floating point numbers are real numbers."
  },
  {
   "property": "C87",
   "status": "partial",
   "theorems": [
    "Meshmode.C87_radius",
    "Meshmode.C87_direction",
    "Meshmode.C87_range_partial",
    "Meshmode.C87_mesh",
    "Meshmode.C87_range_counterexample"
   ],
   "note": "The range of distances is only that of the nodes before refinement, since lo and hi are taken there; refinement gives points with smaller distance than min_rad, even on the opposite side of the origin (C87_range_counterexample). The harmonic is any function of the angles; constant harmonics divide by zero."
  },
  {
   "property": "C88",
   "status": "partial",
   "theorems": [
    "Meshmode.C88_vertices_match_partial",
    "Meshmode.C88_straight_partial",
    "Meshmode.C88_straight_history_partial",
    "Meshmode.C88_linear_straight",
    "Meshmode.C88_simplex_children",
    "Meshmode.C88_groups_counterexample"
   ],
   "note": "For flagged elements in one group; with flagged elements in two groups the vertices of elements of the second are elsewhere (C88_groups_counterexample). Exact arithmetic; the resampling matrices and modepy's templates are given; one kind of elements."
  },
  {
   "property": "C89",
   "status": "partial",
   "theorems": [
    "Meshmode.C89_refine_defined",
    "Meshmode.C89_refine_counts",
    "Meshmode.C89_uniform_error",
    "Meshmode.C89_uniform_counts",
    "Meshmode.C89_uniform_straight_partial",
    "Meshmode.C89_tess_complete"
   ],
   "note": "The statement on vertices is for meshes of one group (see C88_groups_counterexample); the rest is proved. The consistency check of the refined mesh by make_mesh is not run."
  },
  {
   "property": "C90",
   "status": "proved",
   "theorems": [
    "Meshmode.C90_plain",
    "Meshmode.C90_fixed",
    "Meshmode.C90_fixed_defined",
    "Meshmode.C90_plain_defined",
    "Meshmode.C90_not_volume"
   ],
   "note": "One to three dimensions (in four the orientation has the wrong sign, see C55_four_dimensions_counterexample). Exact arithmetic; the basis contains affine functions, resampling matrices are exact; of make_mesh's checks only the one for orientation is modelled."
  },
  {
   "property": "C91",
   "status": "partial",
   "theorems": [
    "Meshmode.C91_faithful_partial",
    "Meshmode.C91_defined",
    "Meshmode.C91_repeat",
    "Meshmode.C91_facial_counterexample",
    "Meshmode.C91_empty_counterexample"
   ],
   "note": "Facial adjacency is not exported even if it was given, and groups without elements lose array shapes; the rest is determined by the structure."
  },
  {
   "property": "C92",
   "status": "partial",
   "theorems": [
    "Meshmode.C92_output",
    "Meshmode.C92_warning",
    "Meshmode.C92_suggestion_partial",
    "Meshmode.C92_suggestion_counterexample"
   ],
   "note": "The suggestion is lossless exactly if the coordinates on all later axes are zero as well; for a mesh in the plane x = 0 the warning suggests zero dimensions (C92_suggestion_counterexample)."
  },
  {
   "property": "C93",
   "status": "partial",
   "theorems": [
    "Meshmode.C93_connectivity",
    "Meshmode.C93_batches",
    "Meshmode.C93_identity",
    "Meshmode.C93_check",
    "Meshmode.C93_fresh_partial",
    "Meshmode.C93_copy_defined",
    "Meshmode.C93_default_counterexample",
    "Meshmode.C93_make",
    "Meshmode.C93_given_nodes",
    "Meshmode.C93_high_order",
    "Meshmode.C93_visualize_mesh",
    "Meshmode.C93_fresh_counterexample",
    "Meshmode.C93_skip_counterexample"
   ],
   "note": "A visualizer made without vis_order uses an identity connection and cannot be copied at all (C93_default_counterexample); a copy keeps the real type of the old visualization discretization (C93_fresh_counterexample), apart from which it equals a visualizer made anew; with skip_tests the connectivity of the old mesh is used (C93_skip_counterexample)."
  },
  {
   "property": "C94",
   "status": "partial",
   "theorems": [
    "Meshmode.C94_vertices",
    "Meshmode.C94_tikz",
    "Meshmode.C94_tikz_edges_partial",
    "Meshmode.C94_tikz_counterexample",
    "Meshmode.C94_stl",
    "Meshmode.C94_nodal_adjacency"
   ],
   "note": "mesh_to_tikz draws the edges exactly for points, lines and triangles; quadrilaterals are drawn with their diagonals instead of two sides (C94_tikz_counterexample). The file formats' writers and rounding are not modelled."
  },
  {
   "property": "C95",
   "status": "partial",
   "theorems": [
    "Meshmode.C95_map",
    "Meshmode.C95_jacobian",
    "Meshmode.C95_found",
    "Meshmode.C95_correction",
    "Meshmode.C95_straight_error_partial",
    "Meshmode.C95_straight",
    "Meshmode.C95_opposite",
    "Meshmode.C95_accuracy",
    "Meshmode.C95_conforming_defined",
    "Meshmode.C95_conforming_call",
    "Meshmode.C95_conforming",
    "Meshmode.C95_partition",
    "Meshmode.C95_partition_defined",
    "Meshmode.C95_partition_call",
    "Meshmode.C95_partition_conforming",
    "Meshmode.C95_points",
    "Meshmode.C95_newton_counterexample"
   ],
   "note": "Proved for coinciding nodes and for straight faces. On curved faces the point found is the last checked point moved by one more least-squares correction (C95_found, C95_opposite, C95_partition); the residual after it is not checked and may be large (C95_newton_counterexample). Rounding is not modelled."
  },
  {
   "property": "C96",
   "status": "proved",
   "theorems": [
    "Meshmode.C96_init",
    "Meshmode.C96_init_errors",
    "Meshmode.C96_copy",
    "Meshmode.C96_copy_replaces",
    "Meshmode.C96_zeros_defined",
    "Meshmode.C96_zeros_checked",
    "Meshmode.C96_ndofs",
    "Meshmode.C96_zeros_zero",
    "Meshmode.C96_zeros_dtype",
    "Meshmode.C96_zeros_like",
    "Meshmode.C96_zeros_like_errors",
    "Meshmode.C96_zeros_like_zeros",
    "Meshmode.C96_no_groups_counterexample",
    "Meshmode.C96_weights_defined",
    "Meshmode.C96_weights_checked",
    "Meshmode.C96_weights",
    "Meshmode.C96_quadrature",
    "Meshmode.C96_sequence",
    "Meshmode.C96_astype",
    "Meshmode.C96_parts",
    "Meshmode.C96_parts_dtype",
    "Meshmode.C96_conj_conj"
   ],
   "note": "Without groups, zeros_like rejects the arrays that zeros makes (C96_no_groups_counterexample); the property is claimed for at least one group. Axis tags are not modelled."
  },
  {
   "property": "C97",
   "status": "proved",
   "theorems": [
    "Meshmode.C97_exact",
    "Meshmode.C97_unique",
    "Meshmode.C97_defined",
    "Meshmode.C97_count",
    "Meshmode.C97_tensor_exact",
    "Meshmode.C97_tensor_defined",
    "Meshmode.C97_tensor_rejects",
    "Meshmode.C97_nodes_1d",
    "Meshmode.C97_tensor_init",
    "Meshmode.C97_restriction",
    "Meshmode.C97_restriction_3d",
    "Meshmode.C97_order_zero",
    "Meshmode.C97_two_dim",
    "Meshmode.C97_given",
    "Meshmode.C97_discretization"
   ],
   "note": "The rules of modepy that are passed through (Gauss, Vioreanu-Rokhlin, Xiao-Gimbutas) are not modelled, nor is rounding; modepy's mass matrix is the inverse of V V^T."
  },
  {
   "property": "C98",
   "status": "proved",
   "theorems": [
    "Meshmode.C98_check_iff",
    "Meshmode.C98_check_errors",
    "Meshmode.C98_check_batches",
    "Meshmode.C98_check_reads",
    "Meshmode.C98_face_restriction",
    "Meshmode.C98_opposite",
    "Meshmode.C98_partition",
    "Meshmode.C98_refinement",
    "Meshmode.C98_same_mesh",
    "Meshmode.C98_embedding",
    "Meshmode.C98_permutation_iff",
    "Meshmode.C98_permutation_default",
    "Meshmode.C98_permutation_defined",
    "Meshmode.C98_permutation_mono",
    "Meshmode.C98_permutation_value",
    "Meshmode.C98_permutation_commutes",
    "Meshmode.C98_multiplier_counterexample",
    "Meshmode.C98_not_bijective_counterexample",
    "Meshmode.C98_check_counterexample"
   ],
   "note": "A yes for a tolerance given by the caller is not about applying the connection (C98_multiplier_counterexample), a yes does not imply a bijection (C98_not_bijective_counterexample), and the check does not compare lengths or look for elements set twice (C98_check_counterexample)."
  },
  {
   "property": "C99",
   "status": "proved",
   "theorems": [
    "Meshmode.C99_set_errors",
    "Meshmode.C99_set_mesh",
    "Meshmode.C99_set_other",
    "Meshmode.C99_get_discr",
    "Meshmode.C99_vertices",
    "Meshmode.C99_get_defined",
    "Meshmode.C99_push_pull",
    "Meshmode.C99_push_errors",
    "Meshmode.C99_push_layout",
    "Meshmode.C99_pull_defined",
    "Meshmode.C99_nodes_agree",
    "Meshmode.C99_ambient_counterexample"
   ],
   "note": "Octave programs are parameters. For meshes with more coordinates than dimensions get_discr loses the last ones (C99_ambient_counterexample)."
  },
  {
   "property": "C100",
   "status": "proved",
   "theorems": [
    "Meshmode.C100_symmetric_iff",
    "Meshmode.C100_symmetric_defined",
    "Meshmode.C100_boxes",
    "Meshmode.C100_defined",
    "Meshmode.C100_sound",
    "Meshmode.C100_check_iff",
    "Meshmode.C100_computed",
    "Meshmode.C100_detects",
    "Meshmode.C100_hanging_counterexample",
    "Meshmode.C100_mixed_counterexample"
   ],
   "note": "With a hanging vertex the computed nodal adjacency fails the check (C100_hanging_counterexample); with larger elements in a later group the check raises IndexError (C100_mixed_counterexample)."
  },
  {
   "property": "C101",
   "status": "partial",
   "theorems": [
    "Meshmode.C101_init_iff",
    "Meshmode.C101_init_range",
    "Meshmode.C101_init_injective",
    "Meshmode.C101_function_iff",
    "Meshmode.C101_field_iff",
    "Meshmode.C101_from_firedrake",
    "Meshmode.C101_out_partial",
    "Meshmode.C101_object_out",
    "Meshmode.C101_from_meshmode",
    "Meshmode.C101_round_trip",
    "Meshmode.C101_reverse",
    "Meshmode.C101_out_counterexample",
    "Meshmode.C101_alias_counterexample"
   ],
   "note": "out of from_firedrake works for DOF arrays only: with the documented object arrays it always raises AttributeError (C101_object_out, C101_out_counterexample). A group number that is too large raises IndexError (C101_init_range). Mappings with negative entries may name a node twice (C101_alias_counterexample); the transfer theorems assume valid node numbers."
  },
  {
   "property": "C102",
   "status": "proved",
   "theorems": [
    "Meshmode.C102_interior",
    "Meshmode.C102_side",
    "Meshmode.C102_symmetric",
    "Meshmode.C102_made",
    "Meshmode.C102_inside",
    "Meshmode.C102_between",
    "Meshmode.C102_cover",
    "Meshmode.C102_values_inside",
    "Meshmode.C102_values_between"
   ],
   "note": "At the level of boundary elements; the interpolation between the nodes of the two faces is C95 and C32. Making the face restrictions and matching the face nodes are hypotheses. C102_cover is for partitions with at least one part, all of them made."
  },
  {
   "property": "C103",
   "status": "proved",
   "theorems": [
    "Meshmode.C103_sum",
    "Meshmode.C103_computed",
    "Meshmode.C103_computed_all",
    "Meshmode.C103_part",
    "Meshmode.C103_defined"
   ],
   "note": "The discretizations of the face sets have the elements that C27 says, and resampling to their own nodes is the identity (hypothesis FaceDiscrOK). Groups have more than one face. In C103_part the whole mesh has completed adjacency and all parts are made. For a part BTAG_REALLY_ALL does not include the boundaries with other parts, see C13."
  },
  {
   "property": "C104",
   "status": "proved",
   "theorems": [
    "Meshmode.C104_consistent",
    "Meshmode.C104_setup",
    "Meshmode.C104_moves",
    "Meshmode.C104_made"
   ],
   "note": "Composes C31 (messages), C54 and C102 (connections) and C69 (connected parts). The boundary discretization is the restriction to the faces tagged with the remote part; finding the source nodes is a parameter. A rank without boundaries gets an empty result, see C31_done."
  },
  {
   "property": "C105",
   "status": "partial",
   "theorems": [
    "Meshmode.C105_all",
    "Meshmode.C105_marker",
    "Meshmode.C105_really_all",
    "Meshmode.C105_induced_partial",
    "Meshmode.C105_defined",
    "Meshmode.C105_defined_counterexample",
    "Meshmode.C105_induced_counterexample",
    "Meshmode.C105_tags"
   ],
   "note": "BTAG_ALL, the markers and BTAG_REALLY_ALL are right whenever the import returns; C105_defined gives exactly when it does. Missing: it raises when no exterior facet is on a cell used (or no interior facet), and for unmarked exterior facets of meshes with a label; BTAG_INDUCED_BOUNDARY is proved right only if the interior facets are paired rightly (by C48 meshes with one interior facet), and C105_induced_counterexample shows it on a wrong face."
  },
  {
   "property": "C106",
   "status": "proved",
   "theorems": [
    "Meshmode.C106_adjacency_valid",
    "Meshmode.C106_partitioned",
    "Meshmode.C106_part_groups",
    "Meshmode.C106_neighbours",
    "Meshmode.C106_boundary",
    "Meshmode.C106_three_sides_counterexample"
   ],
   "note": "C106_partitioned gives the hypotheses of C11-C13 and C102-C104 for such meshes. C106_three_sides_counterexample shows that the restriction to meshes without three faces of the same vertices is needed."
  },
  {
   "property": "C107",
   "status": "proved",
   "theorems": [
    "Meshmode.C107_defined",
    "Meshmode.C107_elements",
    "Meshmode.C107_neighbours",
    "Meshmode.C107_boundary",
    "Meshmode.C107_separate"
   ],
   "note": "C14_merge_facial_available says when the facial adjacency of the merged mesh is available."
  },
  {
   "property": "C108",
   "status": "proved",
   "theorems": [
    "Meshmode.C108_outlines",
    "Meshmode.C108_sides_are_faces",
    "Meshmode.C108_labels_distinct",
    "Meshmode.C108_element_numbers",
    "Meshmode.C108_vertex_numbers",
    "Meshmode.C108_arrows",
    "Meshmode.C108_no_arrows",
    "Meshmode.C108_face_numbers",
    "Meshmode.C108_labels_inside",
    "Meshmode.C108_limits",
    "Meshmode.C108_defined",
    "Meshmode.C108_curve"
   ],
   "note": "Exact arithmetic; a drawing is the list of calls to matplotlib. The arrows are for adjacency computed from vertices."
  },
  {
   "property": "C109",
   "status": "partial",
   "theorems": [
    "Meshmode.C109_steps",
    "Meshmode.C109_steps_order",
    "Meshmode.C109_elementwise",
    "Meshmode.C109_elementwise_defined",
    "Meshmode.C109_first_axis",
    "Meshmode.C109_first_axis_defined",
    "Meshmode.C109_kernel_tag",
    "Meshmode.C109_iname_tags",
    "Meshmode.C109_options",
    "Meshmode.C109_fallback",
    "Meshmode.C109_order",
    "Meshmode.C109_split_once_partial",
    "Meshmode.C109_split_twice_counterexample",
    "Meshmode.C109_untag",
    "Meshmode.C109_untag_only"
   ],
   "note": "An iname that is the second subscript of two values assigned is split twice (C109_split_twice_counterexample); C109_split_once_partial gives the exact condition. All else is proved for all kernels."
  },
  {
   "property": "C110",
   "status": "proved",
   "theorems": [
    "Meshmode.C110_partition",
    "Meshmode.C110_moved",
    "Meshmode.C110_merge",
    "Meshmode.C110_merged_stuck",
    "Meshmode.C110_split",
    "Meshmode.C110_remove_unused",
    "Meshmode.C110_orientation",
    "Meshmode.C110_orientation_sign",
    "Meshmode.C110_refine",
    "Meshmode.C110_refined_stuck"
   ],
   "note": "Composition of the models of C12, C53 and the others; exact arithmetic over a field. C110_merged_stuck and C110_refined_stuck show when the result cannot be moved."
  },
  {
   "property": "C111",
   "status": "proved",
   "theorems": [
    "Meshmode.C111_facial",
    "Meshmode.C111_renumber",
    "Meshmode.C111_nodal",
    "Meshmode.C111_renumber_nodal",
    "Meshmode.C111_remove_unused",
    "Meshmode.C111_facial_nodal",
    "Meshmode.C111_flips",
    "Meshmode.C111_element_neighbors"
   ],
   "note": "Meshes may have any number of faces on one set of vertices; C111_element_neighbors needs at most two."
  },
  {
   "property": "C112",
   "status": "proved",
   "theorems": [
    "Meshmode.C112_child_map",
    "Meshmode.C112_orientations",
    "Meshmode.C112_history",
    "Meshmode.C112_simplices"
   ],
   "note": "Flagged elements in several groups are excluded by the quantifier: refinement then gives wrong vertices, see C19_two_groups_counterexample and C88_groups_counterexample."
  },
  {
   "property": "C113",
   "status": "proved",
   "theorems": [
    "Meshmode.C113_even",
    "Meshmode.C113_no_boundary",
    "Meshmode.C113_closed",
    "Meshmode.C113_manifold"
   ],
   "note": ""
  },
  {
   "property": "C114",
   "status": "proved",
   "theorems": [
    "Meshmode.C114_conservation",
    "Meshmode.C114_boundary_mesh",
    "Meshmode.C114_boundary_sum",
    "Meshmode.C114_boundary_zero",
    "Meshmode.C114_curve",
    "Meshmode.C114_surface",
    "Meshmode.C114_reversed",
    "Meshmode.C114_triangles",
    "Meshmode.C114_volume_numbers",
    "Meshmode.C114_area",
    "Meshmode.C114_opposite",
    "Meshmode.C114_tetrahedra",
    "Meshmode.C114_volume",
    "Meshmode.C114_divergence",
    "Meshmode.C114_divergence_plane"
   ],
   "note": "For plane triangles and for tetrahedra the opposite directions at common faces are proved from the orientation and from neighbors lying on different sides; for other elements they are a hypothesis."
  },
  {
   "property": "C115",
   "status": "proved",
   "theorems": [
    "Meshmode.C115_partner_symm",
    "Meshmode.C115_value",
    "Meshmode.C115_twice",
    "Meshmode.C115_swap",
    "Meshmode.C115_sum",
    "Meshmode.C115_flux",
    "Meshmode.C115_central",
    "Meshmode.C115_identity_moves"
   ],
   "note": "For faces with coinciding nodes (ConformingNodes) and groups with as many independent basis functions as nodes; over the reals. The search for nodes is exact (FindNear 0), as in C95_conforming."
  },
  {
   "property": "C116",
   "status": "proved",
   "theorems": [
    "Meshmode.C116_value",
    "Meshmode.C116_partner_symm",
    "Meshmode.C116_there_and_back",
    "Meshmode.C116_swap",
    "Meshmode.C116_flux",
    "Meshmode.C116_central",
    "Meshmode.C116_sum",
    "Meshmode.C116_global",
    "Meshmode.C116_identity_moves"
   ],
   "note": "For faces with coinciding nodes (ConformingParts) and groups with as many independent basis functions as nodes; over the reals. The hypotheses on the two parts are those of C95_partition_conforming; for partitioned meshes C102_side and C102_symmetric give those about adjacency. The arrays passed on are those of the other part (C31, C104)."
  },
  {
   "property": "C117",
   "status": "proved",
   "theorems": [
    "Meshmode.C117_groups",
    "Meshmode.C117_neighbors",
    "Meshmode.C117_boundary",
    "Meshmode.C117_inter_part",
    "Meshmode.C117_part_adjacency",
    "Meshmode.C117_part_ok",
    "Meshmode.C117_defined",
    "Meshmode.C117_partition_tag",
    "Meshmode.C117_forgotten",
    "Meshmode.C117_forgotten_counterexample"
   ],
   "note": "The records towards other parts of the first step are lost because InterPartAdjacencyGroup is a BoundaryAdjacencyGroup and is copied as one; C117_forgotten_counterexample shows a case."
  },
  {
   "property": "C118",
   "status": "proved",
   "theorems": [
    "Meshmode.C118_group_count",
    "Meshmode.C118_order",
    "Meshmode.C118_elements",
    "Meshmode.C118_sum",
    "Meshmode.C118_defined"
   ],
   "note": "Stated per boundary group as a permutation of the lists of (nodes, vertex points); faces listed twice under the tag are allowed."
  },
  {
   "property": "C119",
   "status": "proved",
   "theorems": [
    "Meshmode.C119_elements",
    "Meshmode.C119_defined",
    "Meshmode.C119_parts",
    "Meshmode.C119_polynomial_local",
    "Meshmode.C119_vertices"
   ],
   "note": "Vertex points under the hypothesis that corners match the nodes (C88 says when); adjacency is not compared."
  },
  {
   "property": "C120",
   "status": "proved",
   "theorems": [
    "Meshmode.C120_inside_defined",
    "Meshmode.C120_between_defined",
    "Meshmode.C120_values",
    "Meshmode.C120_restricted",
    "Meshmode.C120_defined",
    "Meshmode.C120_call",
    "Meshmode.C120_total",
    "Meshmode.C120_flux",
    "Meshmode.C120_conserved",
    "Meshmode.C120_central",
    "Meshmode.C120_discr",
    "Meshmode.C120_made"
   ],
   "note": "That the boundary discretizations of the parts have their nodes where the whole mesh has them is proved for discretizations made from the boundary meshes by the same factory (discr, made). Real arithmetic; the exchange of arrays by MPI is not part of this."
  },
  {
   "property": "C121",
   "status": "partial",
   "theorems": [
    "Meshmode.C121_orthogonal",
    "Meshmode.C121_best",
    "Meshmode.C121_round_trip",
    "Meshmode.C121_defined",
    "Meshmode.C121_tiles",
    "Meshmode.C121_order_zero_counterexample"
   ],
   "note": "Real arithmetic. Fails for order zero: the differentiation matrices of constant functions are zero, so are all weights, and everything is projected to zero (order_zero_counterexample). Otherwise proved; the class checks orthonormality only by the type of the group, and the exactness of the quadrature is a hypothesis."
  },
  {
   "property": "C122",
   "status": "proved",
   "theorems": [
    "Meshmode.C122_element",
    "Meshmode.C122_straight",
    "Meshmode.C122_total",
    "Meshmode.C122_integral",
    "Meshmode.C122_project",
    "Meshmode.C122_nodes"
   ],
   "note": "Real arithmetic. The area element is what a user computes from the derivatives; the package has no function for it. That the nodes of the refined mesh are on the parents is C122_nodes (for elements that are refined; others keep their nodes)."
  },
  {
   "property": "C123",
   "status": "partial",
   "theorems": [
    "Meshmode.C123_rearranged",
    "Meshmode.C123_sum",
    "Meshmode.C123_integral",
    "Meshmode.C123_norm",
    "Meshmode.C123_powers",
    "Meshmode.C123_maximum_partial",
    "Meshmode.C123_elementwise",
    "Meshmode.C123_combined",
    "Meshmode.C123_nodes",
    "Meshmode.C123_empty_group_counterexample"
   ],
   "note": "Exact arithmetic. The maximum norm of a part without elements in some group raises an exception (counterexample), so the statement for infinity assumes values in all groups of all parts. The resampling matrix is a parameter."
  },
  {
   "property": "C124",
   "status": "proved",
   "theorems": [
    "Meshmode.C124_nodes",
    "Meshmode.C124_boundary",
    "Meshmode.C124_similar",
    "Meshmode.C124_rigid",
    "Meshmode.C124_volume"
   ],
   "note": "Exact arithmetic. The space of the mesh's element group contains the constants, the rows of the face resampling matrices add up to one and differentiation annihilates constants, as they do for all polynomial spaces. The area element is specification: the code leaves it to the user."
  },
  {
   "property": "C125",
   "status": "proved",
   "theorems": [
    "Meshmode.C125_history",
    "Meshmode.C125_identity",
    "Meshmode.C125_warning",
    "Meshmode.C125_defined",
    "Meshmode.C125_shapes",
    "Meshmode.C125_mesh_nodes",
    "Meshmode.C125_accuracy"
   ],
   "note": "Exact arithmetic; mp.resampling_matrix is a parameter that reproduces the span of the basis. Objects are numbered in the order in which they are made."
  },
  {
   "property": "C126",
   "status": "proved",
   "theorems": [
    "Meshmode.C126_merge_nodes",
    "Meshmode.C126_merge_sum",
    "Meshmode.C126_merge_integral",
    "Meshmode.C126_merge_rows",
    "Meshmode.C126_merge_norm",
    "Meshmode.C126_merge_elementwise",
    "Meshmode.C126_split_nodes",
    "Meshmode.C126_split_sum",
    "Meshmode.C126_split_integral",
    "Meshmode.C126_split_rows",
    "Meshmode.C126_split_norm",
    "Meshmode.C126_split_elementwise"
   ],
   "note": "Exact arithmetic. Integrals are computed from quadrature weights, area elements and values."
  },
  {
   "property": "C127",
   "status": "proved",
   "theorems": [
    "Meshmode.C127_computed_faces",
    "Meshmode.C127_computed_boundary",
    "Meshmode.C127_part_faces",
    "Meshmode.C127_part_boundary",
    "Meshmode.C127_no_empty_groups"
   ],
   "note": "The proviso on three faces is needed, see C03_three_sides_counterexample. part_boundary assumes of the mesh that neither its boundary groups nor its other groups list a face twice."
  },
  {
   "property": "C128",
   "status": "proved",
   "theorems": [
    "Meshmode.C128_orientations",
    "Meshmode.C128_positive",
    "Meshmode.C128_volume",
    "Meshmode.C128_regular"
   ],
   "note": "Exact arithmetic. The orientation is the determinant of the edges at the first vertex. What make_mesh stores about adjacency is a parameter: orientations do not depend on it."
  },
  {
   "property": "C129",
   "status": "proved",
   "theorems": [
    "Meshmode.C129_merge",
    "Meshmode.C129_part",
    "Meshmode.C129_split",
    "Meshmode.C129_remove_unused"
   ],
   "note": "Splitting needs at least one element: without elements the split mesh has no groups, and the function raises. Affine maps are in C110_orientation."
  },
  {
   "property": "C130",
   "status": "proved",
   "theorems": [
    "Meshmode.C130_apart",
    "Meshmode.C130_apart_plane",
    "Meshmode.C130_box",
    "Meshmode.C130_box_surface",
    "Meshmode.C130_box_curve",
    "Meshmode.C130_affine",
    "Meshmode.C130_part",
    "Meshmode.C130_merge",
    "Meshmode.C130_split",
    "Meshmode.C130_remove_unused",
    "Meshmode.C130_flips",
    "Meshmode.C130_forced",
    "Meshmode.C130_forced_plane",
    "Meshmode.C130_refine",
    "Meshmode.C130_refine_history",
    "Meshmode.C130_triangle_children",
    "Meshmode.C130_tensor_children",
    "Meshmode.C130_tensor_maps",
    "Meshmode.C130_tensor_counterexample"
   ],
   "note": "Boxes without periodic axes. The normals are those of the order of the vertices of the boundary elements; normals are not computed in meshmode itself. Boxes of quadrilaterals are not in the quantifier: their boundary mesh is not consistently directed (C130_tensor_counterexample). For refinement the children of the reference element must not overlap; this is shown for the four children of a triangle (C130_triangle_children) and for the halves of intervals, squares and cubes of any dimension (C130_tensor_children, C130_tensor_maps), not for tetrahedra."
  }
 ]
}