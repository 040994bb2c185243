{"id": "C01", "title": "Global element numbering is a bijection", "statement": "Numbering elements group after group with base_element_nrs gives each (group, element) pair exactly one number in range(nelements), and find_group_indices maps every such number back to its group (so number minus that group's base is the local element index).", "quantifier": "every list of groups with any element counts, including empty groups", "why_tests_cant": "A test fixes a handful of group sizes; the bijection must hold for all lists of sizes.", "anchors": ["meshmode/mesh/__init__.py: Mesh.base_element_nrs, Mesh.nelements", "meshmode/mesh/processing.py: find_group_indices"]}
{"id": "C02", "title": "Computed facial adjacency is symmetric", "statement": "In the facial adjacency computed from vertices, whenever a row says face f of element e (group g) neighbours face f' of element e' (group g'), there is a row saying that face f' of e' neighbours face f of e, and both faces have the same vertex set. Interior groups are listed by neighbouring group and their rows by face and element.", "quantifier": "every mesh: any number of groups, element types, elements, vertex numbering", "why_tests_cant": "Tests see a few generated meshes; symmetry is a statement about all vertex index tables.", "anchors": ["meshmode/mesh/__init__.py: _match_faces_by_vertices, _compute_facial_adjacency_from_vertices"]}
{"id": "C03", "title": "Computed facial adjacency is complete", "statement": "Every face of every element is either in exactly one interior adjacency row or reported as a boundary face, never both, provided no three faces share one vertex set; a face is a boundary face exactly when no other face has its vertex set.", "quantifier": "every mesh in which at most two faces share a vertex set", "why_tests_cant": "Completeness is a universal statement over faces and meshes.", "anchors": ["meshmode/mesh/__init__.py: _match_faces_by_vertices, _compute_facial_adjacency_from_vertices"]}
{"id": "C04", "title": "Computed nodal adjacency is exactly vertex sharing", "statement": "mesh.nodal_adjacency lists for each element exactly the other elements sharing at least one vertex with it, each once, never the element itself; the relation is symmetric and the CSR starts array is nondecreasing from 0 to len(neighbors).", "quantifier": "every mesh and every vertex table", "why_tests_cant": "Exactness ranges over all meshes.", "anchors": ["meshmode/mesh/__init__.py: _compute_nodal_adjacency_from_vertices, NodalAdjacency"]}
{"id": "C05", "title": "BTAG_ALL and BTAG_REALLY_ALL contain what they promise", "statement": "After construction, the BTAG_REALLY_ALL boundary of each group contains every boundary face, and the BTAG_ALL boundary contains exactly the boundary faces not excluded by BTAG_NO_BOUNDARY-type tags; every user tag still denotes the faces given for it.", "quantifier": "every tagging of boundary faces, any tag set, any overlap, any group count", "why_tests_cant": "Tests use one or two taggings; the claim is over all.", "anchors": ["meshmode/mesh/__init__.py: _complete_facial_adjacency_groups, _compute_facial_adjacency_from_vertices, _merge_boundary_adjacency_groups, is_true_boundary"]}
{"id": "C06", "title": "Boundary merging is a faithful union", "statement": "Merging boundary adjacency groups yields every (element, face) of the inputs exactly once, in an order that does not depend on the order in which the groups were given or on duplicates.", "quantifier": "every list of boundary groups", "why_tests_cant": "Universal over lists, overlaps and orders.", "anchors": ["meshmode/mesh/__init__.py: _merge_boundary_adjacency_groups"]}
{"id": "C07", "title": "Boundary coverage check accepts exactly the right taggings", "statement": "check_bc_coverage raises unless each boundary face is covered by exactly one of the given tags (or, with incomplete_ok, at most one).", "quantifier": "every mesh boundary and every list of tags", "why_tests_cant": "Acceptance must be exact over all coverings.", "anchors": ["meshmode/mesh/__init__.py: check_bc_coverage, is_boundary_tag_empty, mesh_has_boundary"]}
{"id": "C08", "title": "Lazy adjacency is history independent", "statement": "Whatever sequence of accesses is made to nodal_adjacency and facial_adjacency_groups, each access gives the same answer as the first one would on a fresh mesh: the supplied data, the computed data, or DataUnavailableError when the mesh has it disabled or is not known to be conforming.", "quantifier": "every sequence of accesses and every initial state (missing, disabled, supplied; conforming true/false/unknown)", "why_tests_cant": "A property of all histories.", "anchors": ["meshmode/mesh/__init__.py: Mesh.nodal_adjacency, Mesh.facial_adjacency_groups"]}
{"id": "C09", "title": "Partitioning loses and duplicates no element", "statement": "If partition_mesh accepts a part-to-elements map, every element of the mesh is in exactly one part, and each part's elements, in order and in the group structure of the mesh, are exactly the listed elements; maps that leave elements uncovered or covered by two parts are rejected.", "quantifier": "every mesh, every number of parts, every assignment of elements to parts", "why_tests_cant": "All assignments, including empty parts and interleaved groups.", "anchors": ["meshmode/mesh/processing.py: partition_mesh, _get_mesh_part, _filter_mesh_groups, _compute_global_elem_to_part_elem"]}
{"id": "C10", "title": "A part keeps its geometry", "statement": "For each element of a part, its vertices, looked up in the part's vertex array, are the same points in the same order as in the original mesh, and every vertex of the part is used by an element of the part.", "quantifier": "every mesh and every part", "why_tests_cant": "Vertex renumbering must be right for all vertex tables.", "anchors": ["meshmode/mesh/processing.py: _filter_mesh_groups, _get_mesh_part"]}
{"id": "C11", "title": "A part keeps its internal connectivity", "statement": "Two faces of elements of the same part are neighbours in the part exactly when they are neighbours in the original mesh; element numbers are the part's own.", "quantifier": "every mesh with facial adjacency and every assignment", "why_tests_cant": "Universal over adjacency and assignments.", "anchors": ["meshmode/mesh/processing.py: _create_self_to_self_adjacency_groups, _get_mesh_part"]}
{"id": "C12", "title": "Inter-part boundaries agree on both sides", "statement": "If part p records that its face (e,f) faces element e', face f' of part q, then part q records that (e',f') faces (e,f) of part p, and these are exactly the original interior faces between p and q.", "quantifier": "every mesh with symmetric facial adjacency, every assignment, every pair of parts", "why_tests_cant": "This is a relation between two separately computed parts over all inputs.", "anchors": ["meshmode/mesh/processing.py: _create_self_to_other_adjacency_groups, _get_connected_parts, _get_mesh_part", "meshmode/mesh/__init__.py: InterPartAdjacencyGroup"]}
{"id": "C13", "title": "A part keeps its true boundary", "statement": "Each boundary tag of a part contains exactly the faces of its own elements carrying that tag in the original mesh; and every face that became an inter-part face is in the part's BTAG_REALLY_ALL boundary.", "quantifier": "every mesh, tag and assignment", "why_tests_cant": "Universal over taggings and assignments.", "anchors": ["meshmode/mesh/processing.py: _create_boundary_groups, _get_mesh_part"]}
{"id": "C14", "title": "Merging disjoint meshes preserves elements and connectivity", "statement": "merge_disjoint_meshes keeps every element of every input with its own vertices (same points), keeps each input's facial adjacency with shifted group numbers and nodal adjacency with shifted element numbers, and creates no relation between different inputs, both with and without single_group.", "quantifier": "every list of meshes, any group counts, with or without adjacency", "why_tests_cant": "Offsets must be right for any number of inputs.", "anchors": ["meshmode/mesh/processing.py: merge_disjoint_meshes"]}
{"id": "C15", "title": "Splitting groups preserves elements", "statement": "split_mesh_groups with per-element flags yields groups whose elements, taken together, are the original elements each exactly once, elements in one new group share old group and flag, and the returned map sends each (old group, flag) to the new group holding exactly those elements.", "quantifier": "every mesh and flag assignment", "why_tests_cant": "All flag patterns.", "anchors": ["meshmode/mesh/processing.py: split_mesh_groups"]}
{"id": "C16", "title": "Gluing makes matched boundary faces neighbours", "statement": "After glue_mesh_boundaries, each face of one boundary and its image on the other are mutual interior neighbours, with mutually inverse affine maps, the glued tags disappear, all other adjacency is unchanged; and the glued faces are no longer part of any boundary.", "quantifier": "every mesh, boundary pair and face matching", "why_tests_cant": "Universal over matchings and boundaries.", "anchors": ["meshmode/mesh/processing.py: glue_mesh_boundaries, _match_boundary_faces, BoundaryPairMapping"]}
{"id": "C17", "title": "Affine mesh maps transport periodicity", "statement": "When a mesh with interior adjacency maps x -> Gx+h is mapped by y = Ax+b, the new adjacency map sends the image of a face point to the image of its partner point.", "quantifier": "every dimension, every invertible A, every b, and every adjacency map (with matrix and/or offset absent)", "why_tests_cant": "Universal over matrices.", "anchors": ["meshmode/mesh/processing.py: affine_map", "meshmode/mesh/tools.py: AffineMap"]}
{"id": "C18", "title": "AffineMap algebra", "statement": "AffineMap with missing matrix or offset behaves as with identity/zero; inverted() undoes the map; equality is structural.", "quantifier": "all dimensions, invertible matrices, offsets and points", "why_tests_cant": "An algebraic law over all matrices.", "anchors": ["meshmode/mesh/tools.py: AffineMap.__call__, AffineMap.inverted"]}
{"id": "C19", "title": "Refinement keeps the domain's connectivity conforming", "statement": "Uniformly refining any conforming mesh gives a mesh in which new vertices on an edge shared by elements are shared: two fine elements use the same new vertex number exactly when it is the midpoint of the same coarse edge; all numbers are valid.", "quantifier": "every conforming mesh with any number of groups", "why_tests_cant": "All vertex tables and group counts.", "anchors": ["meshmode/mesh/refinement/no_adjacency.py: RefinerWithoutAdjacency.refine", "meshmode/mesh/refinement/utils.py", "meshmode/mesh/refinement/tessellate.py"]}
{"id": "C20", "title": "Refinement element bookkeeping is exact", "statement": "After refine(flags), each unflagged element has exactly one child, each flagged element has the template's number of children, the children of the elements in order are consecutive and cover every element of the new mesh exactly once.", "quantifier": "every mesh, every flag array, every sequence of refinements", "why_tests_cant": "All flag patterns and histories.", "anchors": ["meshmode/mesh/refinement/no_adjacency.py: RefinerWithoutAdjacency", "meshmode/discretization/connection/refinement.py: make_refinement_connection"]}
{"id": "C21", "title": "Box mesh numbering and tags", "statement": "generate_box_mesh numbers vertices so that grid point (i,j,k) has a unique number, every element uses valid numbers, every grid cell is covered by its elements, interior grid faces belong to exactly two elements and hull faces to exactly one, and each side tag contains exactly the faces on that side.", "quantifier": "every dimension 1-3, all axis lengths, simplex and tensor-product groups", "why_tests_cant": "All grid sizes.", "anchors": ["meshmode/mesh/generation.py: generate_box_mesh"]}
{"id": "C22", "title": "Direct connection equals its matrix", "statement": "Applying a direct discretization connection to a vector gives the product of its dense resampling matrix with the flattened vector.", "quantifier": "all group counts, batches with distinct target elements, index arrays and data (over any commutative ring)", "why_tests_cant": "Universal over batch structure and data.", "anchors": ["meshmode/discretization/connection/direct.py: DirectDiscretizationConnection.__call__, make_direct_full_resample_matrix"]}
{"id": "C23", "title": "Merged pick evaluation equals batch evaluation", "statement": "When the connection decides to evaluate a target group by index picking, the result equals what batch-by-batch interpolation gives.", "quantifier": "all connections for which the pick path is chosen, all data", "why_tests_cant": "The optimisation must be right for every batch structure.", "anchors": ["meshmode/discretization/connection/direct.py: _per_target_group_pick_info, DirectDiscretizationConnection.__call__"]}
{"id": "C24", "title": "Connections are linear", "statement": "Applying a direct or chained connection commutes with addition and scaling of the input and maps zero to zero.", "quantifier": "all connections and data over any commutative ring", "why_tests_cant": "Algebraic law over all data.", "anchors": ["meshmode/discretization/connection/direct.py: DirectDiscretizationConnection.__call__", "meshmode/discretization/connection/chained.py: ChainedDiscretizationConnection.__call__"]}
{"id": "C25", "title": "Chained connection is composition and its matrix the product", "statement": "A chained connection applies its members left to right; its resampling matrix is the product of the members' matrices in that order; is_surjective implies every member is; a broken chain (to_discr of one is not from_discr of next) is rejected.", "quantifier": "all chains of any length", "why_tests_cant": "Induction over chain length.", "anchors": ["meshmode/discretization/connection/chained.py: ChainedDiscretizationConnection, make_full_resample_matrix"]}
{"id": "C26", "title": "Flattening a chain preserves its effect", "statement": "flatten_chained_connection returns a direct connection with the same effect as the chain on all data.", "quantifier": "all chains of direct connections, any number of groups", "why_tests_cant": "Universal over batch structures.", "anchors": ["meshmode/discretization/connection/chained.py: flatten_chained_connection, _build_element_lookup_table, _build_new_group_table"]}
{"id": "C27", "title": "Face restriction enumerates each requested face exactly once", "statement": "The discretization of interior / all / tagged faces has exactly one element for each requested (element, face) pair, target indices are contiguous, and for all faces the element number is nelements*iface+iel.", "quantifier": "every mesh, tag and group count, with and without per_face_groups", "why_tests_cant": "All meshes and tags.", "anchors": ["meshmode/discretization/connection/face.py: make_face_restriction"]}
{"id": "C28", "title": "Face embedding inserts and zero-fills", "statement": "Embedding values on a face set into all faces puts each value at its own (element, face) and zero elsewhere, so embeddings of the interior and of the boundary faces add up to the all-faces restriction.", "quantifier": "every mesh whose faces are interior or boundary, all data", "why_tests_cant": "Universal over face sets and data.", "anchors": ["meshmode/discretization/connection/face.py: make_face_to_all_faces_embedding"]}
{"id": "C29", "title": "Opposite-face connection pairs each face with its neighbour", "statement": "The opposite-face connection reads, for each interior boundary element, from the boundary element that is its neighbour across the face; applying it twice at element level gives back the original; every target element is set exactly once.", "quantifier": "every mesh with symmetric facial adjacency", "why_tests_cant": "Universal over adjacency.", "anchors": ["meshmode/discretization/connection/opposite_face.py: make_opposite_face_connection, _find_ibatch_for_face, _make_bdry_el_lookup_table"]}
{"id": "C30", "title": "Greedy node-match batching partitions the elements", "statement": "When elements are grouped into batches by matching reference nodes, every element lands in exactly one batch, all elements of a batch are within tolerance of that batch's nodes, and the loop terminates.", "quantifier": "every list of elements and every tolerance relation that is reflexive", "why_tests_cant": "Termination and coverage for all inputs.", "anchors": ["meshmode/discretization/connection/opposite_face.py: _find_src_unit_nodes_batches"]}
{"id": "C31", "title": "MPI boundary setup is independent of arrival order", "statement": "For any consistent set of inter-rank boundaries, every message arrival order leads to the same connections, every boundary is reported exactly once over all complete_some calls, and afterwards complete_some returns nothing.", "quantifier": "every set of boundaries and every order of message arrival", "why_tests_cant": "All schedules.", "anchors": ["meshmode/distributed.py: MPIBoundaryCommSetupHelper.complete_some"]}
{"id": "C32", "title": "Mesh distribution delivers to every rank", "statement": "When the root sends parts, every other rank's receive returns its part; no rank waits forever.", "quantifier": "all numbers of ranks and part maps", "why_tests_cant": "All configurations and schedules.", "anchors": ["meshmode/distributed.py: MPIMeshDistributor"]}
{"id": "C33", "title": "Membership list to part map", "statement": "membership_list_to_map sends a list of part numbers to a map in which each part has exactly the increasing list of indices with that number, and every index is in exactly one part.", "quantifier": "all membership lists", "why_tests_cant": "Universal over lists.", "anchors": ["meshmode/distributed.py: membership_list_to_map, get_partition_by_pymetis"]}
{"id": "C34", "title": "Graph handed to the partitioner is the adjacency graph", "statement": "The CSR graph passed to the external partitioner lists for each element exactly its facial neighbours (with multiplicity).", "quantifier": "all meshes with facial adjacency", "why_tests_cant": "CSR construction by sorting and searching must hold for all.", "anchors": ["meshmode/distributed.py: get_partition_by_pymetis"]}
{"id": "C35", "title": "Norms compose over nesting", "statement": "flat_norm of a nested container equals flat_norm of the flat list of all its entries, for ord 1, 2, p and infinity; adding zeros or regrouping never changes it.", "quantifier": "all nestings and entries (for infinity norms: containers without empty parts)", "why_tests_cant": "Universal over container shapes.", "anchors": ["meshmode/dof_array.py: flat_norm, _reduce_norm"]}
{"id": "C36", "title": "Pickling context is scoped and exclusive", "statement": "Inside array_context_for_pickling the context is the given one, after leaving (normally or by exception) there is none, nesting raises without disturbing the outer one, and threads do not see each other's contexts.", "quantifier": "all interleavings of enter/leave/raise over all threads", "why_tests_cant": "All histories and schedules.", "anchors": ["meshmode/dof_array.py: array_context_for_pickling"]}
{"id": "C37", "title": "Pickle round trip", "statement": "Unpickling a pickled DOFArray with a context gives an array with the same group data and tags; the data stored is independent of the context.", "quantifier": "all DOFArrays (any number of groups, frozen or not)", "why_tests_cant": "Universal over arrays.", "anchors": ["meshmode/dof_array.py: DOFArray.__getstate__, DOFArray.__setstate__"]}
{"id": "C38", "title": "DOFArray consistency check is exact", "statement": "check_dofarray_against_discr accepts exactly the arrays whose number of groups and group shapes match the discretization, and rejects anything else.", "quantifier": "all arrays and discretizations", "why_tests_cant": "Exactness over all shapes.", "anchors": ["meshmode/dof_array.py: check_dofarray_against_discr"]}
{"id": "C39", "title": "Mixed derivatives do not depend on the order of axes", "statement": "num_reference_derivative gives the same result for every ordering of the reference axes, equals applying the per-axis matrices one after the other, and rejects out-of-range axes; cached matrices never change the answer.", "quantifier": "all axis lists, all call histories, groups with equal or different keys", "why_tests_cant": "All permutations and histories.", "anchors": ["meshmode/discretization/__init__.py: num_reference_derivative"]}
{"id": "C40", "title": "Group factories choose the right group", "statement": "A type-mapping factory dispatches on exactly the mesh group's type and rejects others; an order-based factory rejects mesh groups of the wrong kind.", "quantifier": "all type maps and group types", "why_tests_cant": "Decision over all maps.", "anchors": ["meshmode/discretization/poly_element.py: TypeMappingGroupFactory, HomogeneousOrderBasedGroupFactory"]}
{"id": "C41", "title": "L2 projection inverts chains in reverse order", "statement": "The L2 inverse of a chain is the chain of inverses reversed, so that if each inverse is a left inverse of its member the whole is a left inverse of the chain; and the inverse of a direct connection reads each target group from the right source group.", "quantifier": "all chains and group structures", "why_tests_cant": "Induction over chains.", "anchors": ["meshmode/discretization/connection/projection.py: L2ProjectionInverseDiscretizationConnection"]}
{"id": "C42", "title": "Repeated VTK writes give the same file", "statement": "Writing the same fields twice from one visualizer writes the same points both times, namely the nodes shrunk about each element's centroid by the shrink factor.", "quantifier": "all node sets, shrink factors and numbers of earlier writes", "why_tests_cant": "A property of histories.", "anchors": ["meshmode/discretization/visualization.py: Visualizer.write_vtk_file, Visualizer._vis_nodes_numpy"]}
{"id": "C43", "title": "Output connectivity refers to the right nodes", "statement": "In VTK output, the cells of element e of group g refer only to nodes of that element, every number is valid, and cell type and offset arrays have one entry per cell.", "quantifier": "all visualization discretizations of order at least one, group counts", "why_tests_cant": "Offset arithmetic for all sizes.", "anchors": ["meshmode/discretization/visualization.py: VTKConnectivity.groups, VTKLagrangeConnectivity.cells, vtk_submesh_for_hypercube"]}
{"id": "C44", "title": "Point permutation search is sound and complete", "statement": "find_point_to_point_mapping maps each source point to some target point within tolerance when there is one and to -1 otherwise; find_point_permutation returns a permutation matching the points or None.", "quantifier": "all point sets and tolerances", "why_tests_cant": "Recursive bisection must be right for all inputs.", "anchors": ["meshmode/mesh/tools.py: find_point_to_point_mapping, find_point_permutation"]}
{"id": "C45", "title": "Flipping elements is an involution that changes only flagged elements", "statement": "perform_flips reverses the orientation of exactly the flagged elements, keeps the set of vertices of each element, and flipping twice gives back the original mesh's elements.", "quantifier": "all groups and flag arrays", "why_tests_cant": "Universal over flags and vertex tables.", "anchors": ["meshmode/mesh/processing.py: perform_flips, flip_element_group, get_simplex_element_flip_matrix"]}
{"id": "C46", "title": "Unused vertex removal preserves geometry", "statement": "remove_unused_vertices keeps each element's vertices as the same points, leaves no unused vertex, keeps the relative order of vertices, and does nothing when all are used.", "quantifier": "all vertex tables", "why_tests_cant": "Renumbering over all tables.", "anchors": ["meshmode/mesh/processing.py: remove_unused_vertices"]}
{"id": "C47", "title": "Gmsh import tags exactly the marked faces", "statement": "After importing a gmsh mesh, a face of a volume element carries a tag exactly when a lower-dimensional gmsh element with the same vertex set carries that physical tag, and element groups/volume maps contain exactly the marked volume elements.", "quantifier": "all gmsh inputs of supported types", "why_tests_cant": "Universal over inputs.", "anchors": ["meshmode/mesh/io.py: GmshMeshReceiver"]}
{"id": "C48", "title": "Firedrake import reports the right neighbours", "statement": "The interior facial adjacency of a mesh imported from Firedrake pairs the two cells of every interior facet with each other, in both directions.", "quantifier": "all Firedrake meshes", "why_tests_cant": "All facet tables.", "anchors": ["meshmode/interop/firedrake/mesh.py: _get_firedrake_facial_adjacency_groups"]}
{"id": "C49", "title": "Firedrake transfer round trip", "statement": "Moving a function from meshmode to Firedrake and back gives the original values, and a supplied output function keeps its values at nodes outside the mapped cells.", "quantifier": "all injective node maps and data, given mutually inverse resampling matrices", "why_tests_cant": "Universal over node maps and data.", "anchors": ["meshmode/interop/firedrake/connection.py: FiredrakeConnection"]}
{"id": "C50", "title": "Mesh grid placement", "statement": "make_mesh_grid places copy (i,j,..) of the mesh at offset i*offset[0]+j*offset[1]+..., with copies neither lost nor duplicated.", "quantifier": "all grid shapes and offsets", "why_tests_cant": "All shapes.", "anchors": ["meshmode/mesh/processing.py: make_mesh_grid"]}
{"id": "C51", "title": "Curve and torus vertex indices", "statement": "make_curve_mesh and the torus generator connect consecutive vertices, closed curves wrap around, all vertex numbers are valid, and the vertex cycles returned for the torus run along its two directions.", "quantifier": "all element counts", "why_tests_cant": "All sizes.", "anchors": ["meshmode/mesh/generation.py: make_curve_mesh, generate_torus_and_cycle_vertices"]}
{"id": "C52", "title": "Boundary tag emptiness test is exact", "statement": "is_boundary_tag_empty raises for a tag the mesh does not have and otherwise says whether no face of the mesh carries the tag.", "quantifier": "all meshes with facial adjacency, all tags", "why_tests_cant": "Universal over adjacency lists.", "anchors": ["meshmode/mesh/__init__.py: is_boundary_tag_empty, mesh_has_boundary"]}
{"id": "C53", "title": "map_mesh changes the geometry only", "statement": "map_mesh(mesh, f) applies f to every vertex and every node and keeps elements, connectivity and adjacency; it refuses a mesh whose facial adjacency has affine maps.", "quantifier": "every mesh and function", "why_tests_cant": "All meshes and functions.", "anchors": ["meshmode/mesh/processing.py: map_mesh"]}
{"id": "C54", "title": "Connection to a neighbouring part reads the right remote elements", "statement": "Given the group information sent by part q about its boundary with part p, make_partition_connection on part p sets every boundary element of p facing q exactly once, and reads it from the boundary element of q that belongs to the matching face on the other side.", "quantifier": "every pair of parts with mutually matching inter-part adjacency, any number of groups on either side, any reflexive node matching", "why_tests_cant": "All pairs of partitions and numberings.", "anchors": ["meshmode/discretization/connection/opposite_face.py: make_partition_connection", "meshmode/distributed.py: make_remote_group_infos"]}
{"id": "C55", "title": "Forcing positive orientation turns exactly the negative elements", "statement": "make_mesh with force_positive_orientation=True returns a mesh with the same vertices and the same element groups in which every element is positively oriented: an element that already was is unchanged, a negatively oriented one keeps its set of vertices in flipped order with flipped nodes. Adjacency and boundary tags passed in are kept.", "quantifier": "every volume mesh in dimensions one to three whose elements are non-degenerate affine images of the reference element (all simplices are); for other elements the exact condition under which the call succeeds", "why_tests_cant": "Universal over meshes and coordinates.", "anchors": ["meshmode/mesh/__init__.py: make_mesh", "meshmode/mesh/processing.py: find_volume_mesh_element_orientations, perform_flips"]}
{"id": "C56", "title": "Mesh consistency check is exact", "statement": "check_mesh_consistency accepts a mesh exactly when the nodes of every element interpolate to its vertices within the tolerance, vertex numbers have the declared type, the nodal and facial adjacency arrays have the right lengths and types, and (for volume meshes) all elements are positively oriented; is_mesh_consistent says exactly that.", "quantifier": "every mesh whose arrays fit together, every tolerance, with and without the orientation test", "why_tests_cant": "Exactness over all meshes and array shapes.", "anchors": ["meshmode/mesh/__init__.py: check_mesh_consistency, is_mesh_consistent, _test_node_vertex_consistency, _test_group_node_vertex_consistency_resampling"]}
{"id": "C57", "title": "Mesh equality is exact", "statement": "Two meshes compare equal exactly when they agree in class, vertices, groups, identifier types, stored adjacency and conformity; comparing never raises.", "quantifier": "every pair of meshes (without NaN)", "why_tests_cant": "Universal over pairs of meshes.", "anchors": ["meshmode/mesh/__init__.py: Mesh.__eq__, MeshElementGroup.__eq__, NodalAdjacency.__eq__, InteriorAdjacencyGroup.__eq__, BoundaryAdjacencyGroup.__eq__, InterPartAdjacencyGroup.__eq__"]}
{"id": "C58", "title": "Rotation is a rigid motion", "statement": "rotate_mesh_around_axis moves all vertices and nodes by one orthogonal matrix of determinant one that fixes the axis and turns by theta in the positive sense; distances and connectivity are unchanged, rotations about one axis add up, and translational periodicity is carried along.", "quantifier": "every mesh in dimensions one to three whose facial adjacency is not disabled, every angle, every axis other than zero", "why_tests_cant": "Identities over all angles and axes.", "anchors": ["meshmode/mesh/processing.py: rotate_mesh_around_axis, _get_rotation_matrix_from_angle_and_axis"]}
{"id": "C59", "title": "Bounding box is tight", "statement": "find_bounding_box returns, for each axis, the smallest and largest coordinate of the geometry; it raises only for meshes without vertices.", "quantifier": "every mesh", "why_tests_cant": "Universal over vertex sets.", "anchors": ["meshmode/mesh/processing.py: find_bounding_box"]}
{"id": "C60", "title": "Periodic box meshes wrap around", "statement": "generate_box_mesh with periodic axes returns a mesh in which every face on the lower side of a periodic axis is the neighbour of exactly the face opposite to it, with the translation by the length of the box as recorded map (and the inverse in the other direction); all other adjacency is that of the box without periodicity, every face that is not on a side along a non-periodic axis has exactly one neighbour, tags given by the caller keep their meaning, and faces that have a neighbour are not on the boundary.", "quantifier": "every number of axes from one to three, every mesh type, every list of increasing coordinates with at least two points that are further apart than the matching tolerance, every choice of periodic axes, every tagging", "why_tests_cant": "Universal over grids and choices of axes; tests use one small grid.", "anchors": ["meshmode/mesh/generation.py: generate_box_mesh", "meshmode/mesh/processing.py: glue_mesh_boundaries"]}
{"id": "C61", "title": "Modal and nodal data convert into each other", "statement": "NodalToModalDiscretizationConnection and ModalToNodalDiscretizationConnection are only made between a nodal and a modal discretization of one mesh. Modal to nodal evaluates the function with the given coefficients at the unit nodes. Nodal to modal returns the coefficients of the interpolant for interpolatory groups and the sums of weight, mode and value for quadrature groups; rules that are not exact for products of two modes are refused unless allow_approximate_quad is set. For groups with the same space, converting forth and back in either order changes nothing, whatever was computed before on the same array context. The number of coefficients returned is always that of the modal discretization.", "quantifier": "every list of groups, every number of elements and all values over a field, every previous use of the same array context with groups whose keys identify their nodes, basis and weights", "why_tests_cant": "Universal over groups, data and the order of calls that share cached matrices; tests compare one function on a few meshes.", "anchors": ["meshmode/discretization/connection/modal.py: NodalToModalDiscretizationConnection", "meshmode/discretization/connection/modal.py: ModalToNodalDiscretizationConnection"]}
{"id": "C62", "title": "Connections between discretizations of one mesh interpolate", "statement": "make_same_mesh_connection refuses discretizations of different meshes, returns the identity for a discretization and itself, and otherwise a connection with one batch per group that takes each element to itself. Applied to data it returns, on each element, the values at the unit nodes of the target of the function of the source space with the given values; it raises exactly if a group with elements has nodes that are not nodes of the source and the source does not allow interpolation, and the exception says so. Going to a discretization whose space contains that of the source and back changes nothing.", "quantifier": "every pair of discretizations with any number of groups, all unit nodes and bases, all data over a field, both ways of evaluation", "why_tests_cant": "Universal over spaces, nodes and data; tests interpolate a few functions between a few orders.", "anchors": ["meshmode/discretization/connection/same_mesh.py: make_same_mesh_connection", "meshmode/discretization/connection/direct.py: DirectDiscretizationConnection._resample_matrix"]}
{"id": "C63", "title": "The refinement connection evaluates coarse functions on the children", "statement": "make_refinement_connection refuses a discretization of a mesh other than the one refined. Otherwise each fine element is in exactly one batch, whose source is its parent. Applied to data, the connection keeps the function on elements that were not refined, and gives the j-th child of a refined element the values at its unit nodes of the parent's function composed with the (unique) affine map onto the j-th part of the reference element. It can be applied whenever the coarse nodes determine the functions of the coarse space.", "quantifier": "every coarse and fine discretization with any number of groups, every tessellation and element mapping a refiner records, all data over a field of characteristic 0, both ways of evaluation", "why_tests_cant": "Universal over tessellations, spaces and data; tests refine a few meshes and compare a few functions up to a tolerance.", "anchors": ["meshmode/discretization/connection/refinement.py: make_refinement_connection", "meshmode/discretization/connection/refinement.py: _build_interpolation_batches_for_group", "meshmode/mesh/refinement/utils.py: map_unit_nodes_to_children"]}
{"id": "C64", "title": "Refined elements stay on their parents and data stays in place", "statement": "The nodes of the j-th child of a refined element are the points of the parent over the images of the unit nodes in the j-th part of the reference element, so that parent and child describe the same curved piece; nodes of a discretization are the points of the elements over its unit nodes; and the refinement connection gives each node of a child the value which the coarse function has at the same place.", "quantifier": "every polynomial-like space closed under the affine maps to the children, every element, tessellation and coordinate, all data", "why_tests_cant": "Universal over curved elements and spaces; tests compare a few functions after interpolation.", "anchors": ["meshmode/mesh/refinement/tessellate.py: _get_group_tessellated_nodes_modepy", "meshmode/discretization/__init__.py: Discretization.nodes", "meshmode/discretization/connection/refinement.py: make_refinement_connection"]}
{"id": "C65", "title": "The code made by as_python recreates the mesh", "statement": "Running the code that as_python returns for a mesh gives a mesh with the same vertices, element groups, identifier types, adjacency and conformity.", "quantifier": "every mesh that make_mesh returns, arrays of any shape, any boundary tags, every stored adjacency", "why_tests_cant": "Universal over meshes; the one test prints a single mesh with default tags and compares it.", "anchors": ["meshmode/mesh/__init__.py: as_python", "meshmode/mesh/__init__.py: _boundary_tag_as_python", "meshmode/mesh/__init__.py: _numpy_array_as_python", "meshmode/mesh/__init__.py: _affine_map_as_python", "meshmode/mesh/__init__.py: InteriorAdjacencyGroup.as_python", "meshmode/mesh/__init__.py: BoundaryAdjacencyGroup.as_python", "meshmode/mesh/__init__.py: InterPartAdjacencyGroup.as_python"]}
{"id": "C66", "title": "Random rotation matrices are rotations", "statement": "rand_rotation_matrix returns an orthogonal matrix with determinant one for deflections between zero and one; no rotation for deflection zero; every rotation can occur for deflection one.", "quantifier": "all deflections in [0, 1] and all random numbers in [0, 1]", "why_tests_cant": "Universal over real parameters; there is no test of the function.", "anchors": ["meshmode/mesh/tools.py: rand_rotation_matrix"]}
{"id": "C67", "title": "Element groups know whether they are affine", "statement": "is_affine is True for a group of simplices exactly if every element is the image of the unit element under an affine map, that is, if the map from the unit element has no second derivatives.", "quantifier": "all groups of simplices of dimension at least one, of any order, with any unit nodes that determine the polynomials, any number of elements", "why_tests_cant": "Universal over node coordinates; the test has a few meshes and a numerical tolerance.", "anchors": ["meshmode/mesh/__init__.py: is_affine_simplex_group", "meshmode/mesh/__init__.py: SimplexElementGroup.is_affine", "meshmode/mesh/__init__.py: TensorProductElementGroup.is_affine"]}
{"id": "C68", "title": "In-place arithmetic and copies of DOF arrays", "statement": "x += y and its kin give every group of x the entrywise result and change nothing else; operands that do not fit are refused before anything changes; a copy shares no array with the original; fill sets all entries.", "quantifier": "all DOF arrays, operators, operands (DOF arrays that may share arrays with x, numbers, others) and states of the arrays", "why_tests_cant": "Universal over array contents and over sharing of arrays between operands; tests use fresh arrays of one array context.", "anchors": ["meshmode/dof_array.py: DOFArray._ibop", "meshmode/dof_array.py: DOFArray.copy", "meshmode/dof_array.py: DOFArray.fill"]}
{"id": "C69", "title": "Connected parts of a distributed mesh", "statement": "get_connected_parts lists each part that the mesh has inter-part faces to, once, and nothing else; for the parts made by partition_mesh these are exactly the other parts with an element that has a common face with an element of this part, so that being connected is symmetric.", "quantifier": "all meshes with facial adjacency; all partitions of all meshes with valid adjacency", "why_tests_cant": "Universal over partitions: communication deadlocks if one side lists a part and the other does not, for some partition that is not tested.", "anchors": ["meshmode/distributed.py: get_connected_parts"]}
{"id": "C70", "title": "DOF arrays as array containers", "statement": "A DOF array is recovered from its serialization with the array context of the template; items out of sequence are refused; mapping over a container of DOF arrays applies the function to each leaf once and keeps classes and keys; changing the array context keeps the arrays.", "quantifier": "all DOF arrays, item lists, nested containers and functions", "why_tests_cant": "Universal over nested containers and functions, including functions that raise or return containers.", "anchors": ["meshmode/dof_array.py: DOFArray.__init__", "meshmode/dof_array.py: DOFArray.from_list", "meshmode/dof_array.py: _serialize_dof_container", "meshmode/dof_array.py: _deserialize_dof_container", "meshmode/dof_array.py: _with_actx_dofarray", "meshmode/dof_array.py: rec_map_dof_array_container"]}
{"id": "C71", "title": "Element groups made from vertices", "statement": "make_group_from_vertices puts the nodes of each element at the images of the unit nodes under the affine (simplices) or multi-affine (tensor products) map that takes the corners of the unit element to the vertices of the element, in order; it succeeds exactly for the documented inputs.", "quantifier": "all vertices, elements, orders, unit nodes and dimensions", "why_tests_cant": "Universal over dimensions, elements and unit nodes; tests have a few meshes in two and three dimensions.", "anchors": ["meshmode/mesh/generation.py: make_group_from_vertices"]}
{"id": "C72", "title": "Spheres and icosahedra", "statement": "generate_icosahedron makes a closed, outward oriented surface of twenty equal equilateral triangles with twelve vertices at distance r; all vertices and nodes of generate_sphere, from icosahedron or cube, are at distance r from the origin.", "quantifier": "all radii r > 0, orders, unit nodes, and refinements that keep vertices and nodes in the planes of the elements", "why_tests_cant": "Universal over radius, order and unit nodes; a numerical test sees rounding only.", "anchors": ["meshmode/mesh/generation.py: generate_icosahedron", "meshmode/mesh/generation.py: generate_cube_surface", "meshmode/mesh/generation.py: generate_sphere"]}
{"id": "C73", "title": "Surfaces of revolution", "statement": "generate_surface_of_revolution makes one vertex per height and angle at the given radius, two triangles per cell that close up around the axis with at most two triangles per edge, and puts vertices and nodes on the surface, that is, at distance get_radius(theta, z) from the z axis.", "quantifier": "all radius functions with positive values, heights, angles, orders and unit nodes", "why_tests_cant": "Universal over radius functions and sizes; tests use one function.", "anchors": ["meshmode/mesh/generation.py: generate_surface_of_revolution"]}
{"id": "C74", "title": "Regular boxes", "statement": "generate_regular_rect_mesh with nelements_per_axis makes that many elements along each axis of the box from a to b, with equally spaced vertices, and these cover the box without overlap; contradictory or missing sizes are refused.", "quantifier": "all dimensions 1 to 3, all corners a < b of equal length, all positive element numbers of that length", "why_tests_cant": "Universal over corners and element numbers.", "anchors": ["meshmode/mesh/generation.py: generate_regular_rect_mesh"]}
{"id": "C75", "title": "Warped boxes and slices of annular cylinders", "statement": "The maps of generate_warped_rect_mesh and generate_annular_cylinder_slice_mesh are injective with positive Jacobian on the box they are applied to, so that the meshes do not overlap themselves; the slice is exactly the set between the radii, angles and heights, its sides carry the tags of their place, and the periodic variant glues by a map taking one side to the other.", "quantifier": "all points of the box, all centers, all radii 0 < inner < outer", "why_tests_cant": "Statement about all points and radii; tests look at some nodes.", "anchors": ["meshmode/mesh/generation.py: generate_warped_rect_mesh", "meshmode/mesh/generation.py: generate_annular_cylinder_slice_mesh"]}
{"id": "C76", "title": "Fields in visualization files", "statement": "Visualizer.write_vtk_file writes exactly the fields that were given and are neither None nor empty object arrays, attributes of data classes under the name of the field and the attribute: real ones under their name, complex ones as name_r and name_i (only the real part under the plain name with real_only), with the resampled values at all nodes, group after group.", "quantifier": "all lists of fields, connections and groups, components of a field all real or all complex", "why_tests_cant": "Universal over fields, kinds and groups.", "anchors": ["meshmode/discretization/visualization.py: preprocess_fields", "meshmode/discretization/visualization.py: _resample_to_numpy", "meshmode/discretization/visualization.py: separate_by_real_and_imag", "meshmode/discretization/visualization.py: Visualizer.write_vtk_file"]}
{"id": "C77", "title": "VTKHDF files of several ranks", "statement": "Visualizer.write_vtkhdf_file writes one file in which a reader finds for every rank its points, cells, offsets and cell types, whatever the order in which ranks write; it does not change the options of the caller nor, without overwrite, existing files.", "quantifier": "all numbers of ranks, all meshes, all orders of writing", "why_tests_cant": "Universal over ranks, sizes and interleavings; tests run on one rank.", "anchors": ["meshmode/discretization/visualization.py: Visualizer.write_vtkhdf_file"]}
{"id": "C78", "title": "XDMF files", "statement": "Visualizer.write_xdmf_file writes one grid per element group, with the nodes and fields of the group and cells whose points are those of the cells in VTK files, under distinct names; it raises exactly if a field cannot be resampled, the ambient dimension is not two or three, a group is empty or several ranks are asked for.", "quantifier": "all discretizations and lists of fields with names that do not collide", "why_tests_cant": "Universal over groups and fields.", "anchors": ["meshmode/discretization/visualization.py: Visualizer.write_xdmf_file", "meshmode/discretization/visualization.py: _resample_to_numpy", "meshmode/discretization/visualization.py: separate_by_real_and_imag"]}
{"id": "C79", "title": "Parallel VTK files", "statement": "If ranks call Visualizer.write_parallel_vtk_file at the same time, with a pattern giving different names, then in every interleaving each rank writes its own file and exactly rank zero the manifest, which refers to the files of all ranks; without overwrite existing files stay as they are and their rank raises FileExistsError; no other file changes.", "quantifier": "all numbers of ranks, file systems and interleavings; patterns giving different names", "why_tests_cant": "Statement about all interleavings of ranks.", "anchors": ["meshmode/discretization/visualization.py: Visualizer.write_parallel_vtk_file", "meshmode/discretization/visualization.py: Visualizer.write_vtk_file"]}
{"id": "C80", "title": "Vertices and nodal adjacency of Firedrake meshes", "statement": "The rows of vertex numbers import_firedrake_mesh computes are Firedrake's vertex numbers of the cells in use, in the order of cells_to_use; the nodal adjacency lists for each element exactly the other elements sharing a vertex, is symmetric, and is defined exactly if all chosen cells exist.", "quantifier": "all DMPlex topologies of simplices and all choices of cells", "why_tests_cant": "Universal over meshes and choices of cells; Firedrake is not available to most tests.", "anchors": ["meshmode/interop/firedrake/mesh.py: _get_firedrake_nodal_info"]}
{"id": "C81", "title": "Geometry of meshes imported from Firedrake", "statement": "import_firedrake_mesh gives vertices at the places Firedrake has them, numbered as in Firedrake (in the same order when only some cells are used), elements whose rows and nodes are those of Firedrake with the first two vertices exchanged exactly for flipped elements, and facial adjacency naming the same sets of vertices as before the flips; the Firedrake mesh is not changed.", "quantifier": "all meshes of simplices with coordinates continuous at vertices, all choices of cells", "why_tests_cant": "Universal over meshes, choices of cells and orientations.", "anchors": ["meshmode/interop/firedrake/mesh.py: import_firedrake_mesh", "meshmode/interop/firedrake/mesh.py: _get_firedrake_orientations"]}
{"id": "C82", "title": "Meshes exported to Firedrake", "statement": "export_mesh_to_firedrake gives Firedrake the vertices used by the chosen group, without gaps and in order, and its elements; it returns for every element the Firedrake cell and, in exactly one entry, the permutation of its local vertices; the coordinates of the Firedrake cell describe the same curved element, and build_connection_to_firedrake associates every node of the discretization with the Firedrake node at the same place.", "quantifier": "all conforming meshes and groups of simplices, all reorderings of cells and local vertices by Firedrake, exact arithmetic, coordinates agreeing on shared nodes", "why_tests_cant": "Universal over meshes and over whatever reordering Firedrake chooses.", "anchors": ["meshmode/interop/firedrake/mesh.py: export_mesh_to_firedrake", "meshmode/interop/firedrake/connection.py: build_connection_to_firedrake", "meshmode/mesh/processing.py: get_simplex_element_flip_matrix"]}
{"id": "C83", "title": "Reference cells and connections from Firedrake", "statement": "get_affine_reference_simplex_mapping sends vertex i of one reference simplex to vertex i of the other in every dimension, keeps barycentric coordinates and orientation, and its two directions are inverse; build_connection_from_firedrake accepts exactly the documented restrictions, uses exactly the cells with a vertex on the marked boundary, and associates every node of an element, flipped or not, with the Firedrake node at the same place.", "quantifier": "all dimensions, meshes with continuous coordinates, markers and orientations, exact arithmetic", "why_tests_cant": "Universal over dimensions, meshes and orientations.", "anchors": ["meshmode/interop/firedrake/reference_cell.py: get_affine_reference_simplex_mapping", "meshmode/interop/firedrake/connection.py: _get_cells_to_use", "meshmode/interop/firedrake/connection.py: build_connection_from_firedrake", "meshmode/interop/firedrake/connection.py: _reorder_nodes"]}
{"id": "C84", "title": "Curve parametrizations are closed curves", "statement": "Each of the provided curves is a closed curve without jumps over [0, 1], so that make_curve_mesh with closed=True accepts it: circle and ellipse are exactly the unit circle and the ellipse with the given aspect ratio, the apple runs from a circle to a cardioid, dumbbells, random wobbly circles and random starfish do not cross themselves and stay away from the origin where documented, the clamp is made of arcs of the inner and outer shells and two half circles, and n_gon is a polygon.", "quantifier": "all parameters of the curves in their documented ranges and all t", "why_tests_cant": "Universal over real parameters; tests sample a few curves at a few points.", "anchors": ["meshmode/mesh/generation.py: circle", "meshmode/mesh/generation.py: ellipse", "meshmode/mesh/generation.py: cloverleaf", "meshmode/mesh/generation.py: drop", "meshmode/mesh/generation.py: n_gon", "meshmode/mesh/generation.py: qbx_peanut", "meshmode/mesh/generation.py: dumbbell", "meshmode/mesh/generation.py: wobbly_dumbbell", "meshmode/mesh/generation.py: apple", "meshmode/mesh/generation.py: clamp_piecewise", "meshmode/mesh/generation.py: WobblyCircle", "meshmode/mesh/generation.py: NArmedStarfish"]}
{"id": "C85", "title": "Tori and crullers are the surfaces documented", "statement": "All vertices and nodes made by generate_torus are on the torus with the given radii, every point of which has exactly one pair of parameters; different vertices are different points also where the numbering wraps around, and the same holds for crullers, whose tube radius varies between 3/4 and 5/4 of the minor radius; the points are those of the documented map.", "quantifier": "all radii with r_minor < r_major (5/4 r_minor for crullers), all numbers of cells, all parameters", "why_tests_cant": "Universal over real parameters and sizes.", "anchors": ["meshmode/mesh/generation.py: generate_torus", "meshmode/mesh/generation.py: generate_cruller", "meshmode/mesh/generation.py: generate_torus_and_cycle_vertices"]}
{"id": "C86", "title": "warp_and_refine_until_resolved returns a resolved mesh", "statement": "If warp_and_refine_until_resolved returns, the mesh returned comes from the original one by a sequence of refinements, in each of which exactly the elements whose estimated relative interpolation error on the warped mesh exceeds the tolerance were refined, and on the warped version of the result no element exceeds it; a mesh already resolved is returned unchanged; FloatingPointError is raised exactly when a warped mesh has a vertex or node that is not finite.", "quantifier": "all meshes, tolerances, warping functions which keep the elements, and executions", "why_tests_cant": "Universal over warping functions and numbers of iterations.", "anchors": ["meshmode/mesh/generation.py: warp_and_refine_until_resolved"]}
{"id": "C87", "title": "Urchins", "statement": "generate_urchin moves every vertex and node of the refined sphere along its ray from the origin to the distance min_rad + (Y - lo)/(hi - lo) for the spherical harmonic Y, whose value depends only on the direction, so all points of all refinements are on one surface; the distances are between min_rad and min_rad + 1.", "quantifier": "all spherical harmonics (as functions of two angles), all minimal radii and all meshes", "why_tests_cant": "Universal over functions and meshes.", "anchors": ["meshmode/mesh/generation.py: refine_mesh_and_get_urchin_warper", "meshmode/mesh/generation.py: generate_urchin"]}
{"id": "C88", "title": "Refinement keeps vertices on the elements", "statement": "If the vertices of every element of a mesh are the points of the element over the corners of the reference element, then the same holds after refining any flagged elements, provided the refined elements agree on the midpoints of common edges; for straight elements this is always so, after any sequence of refinements: all elements stay straight, and each new vertex is halfway between the two vertices of its edge.", "quantifier": "all meshes, flags and sequences of refinements, all element spaces closed under the maps to children", "why_tests_cant": "Universal over meshes, histories and geometries; tests compare a few refined meshes.", "anchors": ["meshmode/mesh/refinement/no_adjacency.py: RefinerWithoutAdjacency.refine", "meshmode/mesh/refinement/tessellate.py: get_group_midpoints", "meshmode/mesh/refinement/tessellate.py: get_group_tessellated_nodes"]}
{"id": "C89", "title": "Refinement succeeds, and uniform refinement multiplies elements", "statement": "refine succeeds exactly when there is one flag for each element; it keeps the groups, and the number of elements of each group is the sum of the numbers of children; refine_uniformly raises ValueError exactly when adjacency is wanted for a mesh not known to be conforming, and otherwise gives, for each group, the number of elements times the number of children to the power of the number of iterations, conforming exactly if the mesh was; for straight elements of one group, vertices stay on the elements.", "quantifier": "all meshes whose rows of vertex numbers fit the templates, all flags and numbers of iterations", "why_tests_cant": "Universal over meshes and numbers of iterations.", "anchors": ["meshmode/mesh/refinement/no_adjacency.py: RefinerWithoutAdjacency.refine", "meshmode/mesh/refinement/__init__.py: refine_uniformly", "meshmode/mesh/refinement/utils.py: Refiner.refine_uniformly"]}
{"id": "C90", "title": "Meshes from vertices and simplices are straight and positively oriented", "statement": "from_vertices_and_simplices returns a conforming mesh with the given vertices and one group, whose elements are the given ones in the same order, with nodes that are the images of the unit nodes under the affine map from the reference simplex to the element's vertices. With fix_orientation, exactly the negatively oriented elements have their first two vertices exchanged, all elements become positively oriented, the nodes fit the new order of vertices, and the call succeeds exactly if no element is degenerate (order at least one, valid vertex numbers, simplices of the ambient dimension). Without it, elements of the ambient dimension are accepted exactly if all are positively oriented; from_meshpy behaves like this.", "quantifier": "all vertices and simplices in one to three dimensions, all orders, any unit nodes and basis that contains the affine functions", "why_tests_cant": "Universal over geometries and element numberings; tests import a few triangulations.", "anchors": ["meshmode/mesh/io.py: from_vertices_and_simplices", "meshmode/mesh/io.py: from_meshpy", "meshmode/mesh/processing.py: flip_element_group", "meshmode/mesh/processing.py: get_simplex_element_flip_matrix", "meshmode/mesh/processing.py: find_volume_mesh_element_group_orientation"]}
{"id": "C91", "title": "JSON export reflects the mesh", "statement": "Two meshes with the same to_json structure have the same vertices, element groups (class name, order, vertex indices, nodes, unit nodes), nodal adjacency and conformity. The call fails only if a group has no vertex indices or nodal adjacency should be computable and is not; unavailable nodal adjacency is no error. Exporting changes nothing that can be observed: repeated calls give the same structure.", "quantifier": "all meshes whose groups have elements", "why_tests_cant": "Universal over pairs of meshes (injectivity) and states of the adjacency caches.", "anchors": ["meshmode/mesh/io.py: to_json"]}
{"id": "C92", "title": "gmsh output files and the warning about a zero coordinate", "statement": "generate_gmsh keeps the mesh file in the directory and under the name given by output_file_path (the current directory if the path has none; the deprecated output_file_name takes precedence). Without force_ambient_dim it warns exactly if all vertices have coordinate zero on some axis, naming the first such axis, and passing the suggested force_ambient_dim loses no coordinates.", "quantifier": "all POSIX paths; all vertex arrays", "why_tests_cant": "Universal over strings and arrays.", "anchors": ["meshmode/mesh/io.py: generate_gmsh"]}
{"id": "C93", "title": "Visualizers of further discretizations", "statement": "A visualizer made by make_visualizer gives the connectivity of its own visualization discretization in every order of queries, and the classical or high-order (Lagrange) connectivity exactly as asked for. copy_with_same_connectivity succeeds exactly if the new discretization has the same group types and numbers of elements (or the test is skipped), the result visualizes the new discretization, and behaves like a visualizer made anew for it. make_visualizer fails exactly for a shrink factor or force_equidistant without vis_order and where element groups cannot be made with the order; use_high_order works exactly with force_equidistant.", "quantifier": "all discretizations, arguments and sequences of queries and copies", "why_tests_cant": "Universal over histories of memoized objects; tests copy one visualizer and compare a file.", "anchors": ["meshmode/discretization/visualization.py: make_visualizer", "meshmode/discretization/visualization.py: Visualizer.copy_with_same_connectivity", "meshmode/discretization/visualization.py: _check_discr_same_connectivity", "meshmode/discretization/connection/same_mesh.py: make_same_mesh_connection"]}
{"id": "C94", "title": "Exported meshes are the mesh", "statement": "write_vertex_vtk_file writes, for every mesh of lines, triangles, quadrilaterals, tetrahedra and hexahedra, cells that are read as the elements in the order of the mesh with their vertices in the order of VTK, and refuses other meshes. mesh_to_tikz names every element's centroid and vertices once, numbered from one in the order of the mesh, and draws exactly the edges of the elements. write_stl_file writes exactly the triangles of one-group triangle meshes in 3D and refuses all others. write_nodal_adjacency_vtk_file writes element centroids and one line per pair of element and neighbor. Existing files are overwritten exactly on request.", "quantifier": "all meshes with valid vertex numbers and adjacency arrays, whatever new arrays contain", "why_tests_cant": "Universal over meshes and uninitialised memory; tests write a few files and do not read them.", "anchors": ["meshmode/mesh/visualization.py: write_vertex_vtk_file", "meshmode/mesh/visualization.py: mesh_to_tikz", "meshmode/mesh/visualization.py: write_stl_file", "meshmode/discretization/visualization.py: write_nodal_adjacency_vtk_file"]}
{"id": "C95", "title": "Face exchange evaluates at the place of the node", "statement": "The connections of make_opposite_face_connection and make_partition_connection set each node of a boundary element to the value, of the function that the data on the element across the face represent, at a reference point whose image under the parametrization of that face is the (affinely moved) node, up to the tolerance. If the nodes of the two sides coincide, the connection is made and the result is the value at the coinciding node; on straight faces the Gauss-Newton iteration finds the reference points exactly and ends.", "quantifier": "all meshes with symmetric facial adjacency, unisolvent nodal groups, affine maps, tolerances and data; real arithmetic", "why_tests_cant": "Universal over meshes, bases, positions of nodes and data; tests exchange a few smooth functions on a few meshes and compare with a loose tolerance.", "anchors": ["meshmode/discretization/connection/opposite_face.py: _make_cross_face_batches", "meshmode/discretization/connection/opposite_face.py: _find_src_unit_nodes_by_matching", "meshmode/discretization/connection/opposite_face.py: _find_src_unit_nodes_via_gauss_newton", "meshmode/discretization/connection/opposite_face.py: _find_src_unit_nodes_batches", "meshmode/discretization/connection/opposite_face.py: make_opposite_face_connection", "meshmode/discretization/connection/opposite_face.py: make_partition_connection"]}
{"id": "C96", "title": "Discretizations make arrays that fit them", "statement": "A discretization has one group per mesh group, in order, and the complex type of the precision of its real type; a copy without arguments equals it. zeros gives an array in the given array context that passes check_dofarray_against_discr, has ndofs entries, all zero, and the real, complex or given type; zeros_like does the same with the context and type of its argument and rejects exactly frozen arrays and arrays without a single type. quad_weights is frozen, gives each element the weights of its group's rule, and is available exactly if all groups are nodal. Real and imaginary parts, conjugates and conversions act on each entry and keep context and shapes.", "quantifier": "all meshes, group factories, real types, array contexts and arrays; zeros_like of zeros for at least one group", "why_tests_cant": "Tests use the arrays of a few discretizations, mostly with one group and double precision.", "anchors": ["meshmode/discretization/__init__.py: Discretization.__init__", "meshmode/discretization/__init__.py: Discretization.copy", "meshmode/discretization/__init__.py: Discretization.zeros", "meshmode/discretization/__init__.py: Discretization.zeros_like", "meshmode/discretization/__init__.py: Discretization.quad_weights", "meshmode/dof_array.py: DOFArray.entry_dtype", "meshmode/dof_array.py: DOFArray.conj", "meshmode/dof_array.py: DOFArray.real", "meshmode/dof_array.py: DOFArray.imag", "meshmode/dof_array.py: DOFArray.astype"]}
{"id": "C97", "title": "Rules of element groups integrate their spaces exactly", "statement": "The quadrature rule of an interpolatory simplex or tensor product group is defined exactly for unisolvent nodes (which for tensor products have to be close to a tensor product), has the nodes of the group, and integrates each function of the group's polynomial space exactly over the reference element; no other weights at these nodes do. Sums of quad_weights times nodal values are sums of these integrals. The nodes of the 3D restricting warp and blend group in fewer dimensions are the restrictions of its nodes to faces; given nodes are used as given.", "quantifier": "all orthonormal bases whose span contains the constants, all nodes, orders and dimensions; real arithmetic", "why_tests_cant": "Universal over bases, nodes, orders and functions; tests check a few orders on monomials with a tolerance.", "anchors": ["meshmode/discretization/poly_element.py: _MassMatrixQuadratureElementGroup.quadrature_rule", "meshmode/discretization/poly_element.py: TensorProductElementGroupBase.quadrature_rule", "meshmode/discretization/poly_element.py: TensorProductElementGroupBase.__init__", "meshmode/discretization/poly_element.py: TensorProductElementGroupBase.unit_nodes_1d", "meshmode/discretization/poly_element.py: PolynomialWarpAndBlend3DRestrictingElementGroup._interp_nodes", "meshmode/discretization/poly_element.py: PolynomialWarpAndBlend2DRestrictingElementGroup._interp_nodes", "meshmode/discretization/poly_element.py: PolynomialGivenNodesElementGroup._interp_nodes"]}
{"id": "C98", "title": "Inspecting connections", "statement": "check_connection passes exactly if there are as many groups as in the target discretization and each batch names an existing source group, elements and faces; then applying the connection reads only entries there are. The face restrictions, face embeddings, opposite-face, part boundary, refinement and same-mesh connections that the library makes pass it. If is_permutation returns, the answer says whether each node of each batch is within the tolerance of a unit node of its source group; a larger tolerance keeps a yes. A yes for the default tolerance means that applying the connection copies single entries, and so commutes with every pointwise function.", "quantifier": "all connections, discretizations, node sets, tolerances and data; for copies, target elements set by one batch", "why_tests_cant": "Tests call check_connection on a few connections of the library and is_permutation on one or two.", "anchors": ["meshmode/discretization/connection/__init__.py: check_connection", "meshmode/discretization/connection/direct.py: DirectDiscretizationConnection.is_permutation"]}
{"id": "C99", "title": "Meshes and fields in the nodal DG codes", "statement": "NodalDGContext.set_mesh puts the mesh into the Octave variables Nv, K, VX, VY, VZ, EToV (from one) and N, exactly if it has one group and one to three coordinates, and changes no other variable itself. get_discr afterwards gives back the order, the vertex indices and, for volume meshes, the vertices, with the nodes that the start-up program computed and the unit nodes of the codes; it succeeds exactly if these exist. push_dof_array puts the entry of element e and node i into row i and column e and works exactly for one group; pull_dof_array gives back what was pushed, and other variables stay.", "quantifier": "all meshes, orders, fields and states of Octave; Octave programs that leave the inputs alone", "why_tests_cant": "Tests need Octave and the nodal DG codes, and are skipped without them; one mesh per dimension.", "anchors": ["meshmode/interop/nodal_dg.py: NodalDGContext.set_mesh, get_discr, push_dof_array, pull_dof_array"]}
{"id": "C100", "title": "Checking nodal adjacency against geometry", "statement": "check_nodal_adj_against_geometry on a mesh of simplices raises nothing but the assertions. If it passes, elements touched by a vertex of another element are neighbours of each other, and of two neighbours one has a vertex within the tolerance of the other. On a conforming mesh it passes exactly if the neighbours of each element are the other elements with a common vertex, so the adjacency that the library computes passes and each wrong or missing entry makes it fail. is_symmetric says yes exactly for symmetric relations; the boxes of make_element_lookup_tree contain their elements.", "quantifier": "all meshes of nondegenerate simplices of one dimension, adjacency arrays, tolerances and dimensions; exact arithmetic; every search tree that finds the boxes containing a point, every least squares solver", "why_tests_cant": "Tests run the check on refined meshes whose adjacency is right; they never show that it detects wrong adjacency.", "anchors": ["meshmode/mesh/refinement/utils.py: is_symmetric, check_nodal_adj_against_geometry", "meshmode/mesh/tools.py: make_element_lookup_tree"]}
{"id": "C101", "title": "Firedrake connections: arguments, scalar, vector and tensor fields", "statement": "FiredrakeConnection accepts exactly a discretization, a discontinuous Lagrange space, the number of an interpolatory element group and a mapping of nodes with the shape of the group, the data type of the node numbers and no entry twice; other arguments raise TypeError or ValueError. from_firedrake and from_meshmode accept exactly functions of the mesh, family and degree of the connection, and fields on its discretization. They transfer fields of all shapes component by component: shape and data type are kept, nodes outside the mapping keep their values (zero in new functions), other groups stay, and with inverse matrices round trips in both directions give back all values. With out given, the result is stored there, if its shape, data type and array context fit.", "quantifier": "all element groups, mappings, shapes, data types, function values and matrices over every commutative ring", "why_tests_cant": "Tests need Firedrake and are skipped without it; three shapes, two families of meshes, and out is used with scalars only.", "anchors": ["meshmode/interop/firedrake/connection.py: FiredrakeConnection.__init__, firedrake_fspace, _validate_function, _validate_field, from_firedrake, from_meshmode"]}
{"id": "C102", "title": "Exchange of face data on a partitioned mesh", "statement": "Take a mesh apart with partition_mesh, make the opposite-face connection of each part and the connections between the boundaries of each two parts. Together they do exactly what the opposite-face connection of the whole mesh does: each side of each face between two elements is a boundary element of exactly one part, in exactly one of its boundaries (the interior one, or that with exactly one other part); the connection of that boundary sets it from the boundary element for the same face as in the whole mesh. Data that agree with data on the whole mesh before the exchange agree after it.", "quantifier": "all meshes with symmetric interior adjacency that are not parts themselves, all valid partitions, all data", "why_tests_cant": "Tests exchange smooth functions on a few partitions and check the values against the same function within a tolerance; a face that is exchanged with the wrong face of the same position, or set by two connections, goes unnoticed.", "anchors": ["meshmode/mesh/processing.py: partition_mesh, _get_mesh_part", "meshmode/discretization/connection/opposite_face.py: make_opposite_face_connection, make_partition_connection", "meshmode/distributed.py: make_remote_group_infos"]}
{"id": "C103", "title": "Traces on all faces from traces on parts of them", "statement": "Restrict volume data to the interior faces, to boundary tags and (on a part made by partition_mesh) to the boundaries with the connected parts, embed each of these traces in the discretization of all faces and add: the result is the trace on all faces. For this each face must be in exactly one of the face sets. It is, for the interior faces and BTAG_REALLY_ALL of a mesh with computed adjacency no three faces of which have the same vertices, for the interior faces and BTAG_ALL if the tags used are true boundaries, for the interior faces and any tags that each boundary face has exactly one of, and for a part: the interior faces, the same tags and the boundaries with the parts get_connected_parts lists. Restricting a part to the boundary with a part not listed there is an error.", "quantifier": "all element groups, adjacencies, tags, valid partitions and volume data", "why_tests_cant": "Tests add interior and boundary traces of a constant or smooth function on one mesh at a time, on one rank; a face missing from or doubled in the faces of a part of some partition shows only as a small error.", "anchors": ["meshmode/discretization/connection/face.py: make_face_restriction, make_face_to_all_faces_embedding", "meshmode/mesh/processing.py: partition_mesh", "meshmode/distributed.py: get_connected_parts"]}
{"id": "C104", "title": "Exchange across rank boundaries equals that of the whole mesh", "statement": "Spread the parts of a partitioned mesh over ranks and let every rank pass MPIBoundaryCommSetupHelper the boundaries of its parts with the connected parts on other ranks. Then the ranks agree on their boundaries, complete_some returns on every rank, for every order in which the messages arrive, one connection for each pair of a local part and a remote part with a common face and no other, and this connection sets each boundary element from the boundary element that the opposite-face connection of the whole mesh uses. All connections are made if the source nodes can be found for each pair of facing boundary elements.", "quantifier": "all meshes with valid symmetric adjacency, partitions, assignments of parts to ranks and orders of arrival", "why_tests_cant": "The MPI test runs one or two partitions on a few ranks, with the order of messages that happens to come up, and compares a smooth function; it cannot cover all orders or all partitions.", "anchors": ["meshmode/distributed.py: MPIBoundaryCommSetupHelper, make_remote_group_infos, get_connected_parts", "meshmode/discretization/connection/opposite_face.py: make_partition_connection", "meshmode/mesh/processing.py: partition_mesh"]}
{"id": "C105", "title": "Boundary tags of meshes imported from Firedrake", "statement": "Importing a Firedrake mesh, or any non-empty part of its cells, gives a mesh whose BTAG_ALL faces are the exterior facets of the cells used, whose faces under each marker are the exterior facets with that marker, whose BTAG_INDUCED_BOUNDARY faces are those between a cell used and a cell not used, and whose BTAG_REALLY_ALL faces are all of these.", "quantifier": "all simplicial Firedrake meshes, markers and lists of distinct cells", "why_tests_cant": "The tests import a few fixed meshes and compare BTAG_ALL, the markers and the induced boundary by counts or geometric position on these only; restrictions to cells without exterior facets are not tried.", "anchors": ["meshmode/interop/firedrake/mesh.py: _get_firedrake_facial_adjacency_groups, _get_firedrake_boundary_tags, _get_facet_markers, import_firedrake_mesh", "meshmode/mesh/__init__.py: _complete_facial_adjacency_groups"]}
{"id": "C106", "title": "Parts of meshes with computed adjacency", "statement": "partition_mesh commutes with computing the adjacency from vertices: if a mesh has the adjacency that make_mesh computes, then two faces of a part are neighbours exactly if they are when make_mesh computes the adjacency of the part's elements from the part's own renumbered vertices, and the boundary so recomputed consists of the part's BTAG_REALLY_ALL faces and of its faces towards other parts, no face being in both.", "quantifier": "all meshes with consistent groups, no three faces of which have the same vertices, all boundary tags other than BTAG_REALLY_ALL and partition tags, and all lists of elements that partition the mesh", "why_tests_cant": "The tests check the connectivity of parts against the original mesh by element numbers for a few random partitions; they never recompute the adjacency of a part.", "anchors": ["meshmode/mesh/processing.py: partition_mesh, _filter_mesh_groups, _get_mesh_part", "meshmode/mesh/__init__.py: make_mesh, _compute_facial_adjacency_from_vertices"]}
{"id": "C107", "title": "Partitioning a merged mesh by origin gives the meshes back", "statement": "merge_disjoint_meshes followed by partition_mesh with one part for the elements of each mesh merged succeeds, and part k is mesh k again: it has as many elements, its element number e has the kind, nodes and vertex coordinates of element number e of mesh k, its faces are neighbours exactly if the faces with the same numbers of mesh k are, and likewise for BTAG_REALLY_ALL; no face of a part faces another part.", "quantifier": "all non-empty lists of consistent meshes with vertices, no three faces of which have the same vertices, with and without single_group, whenever the facial adjacency of the merged mesh is available", "why_tests_cant": "Merging and partitioning are tested apart, on two or three meshes; the composition is never tested.", "anchors": ["meshmode/mesh/processing.py: merge_disjoint_meshes, partition_mesh", "meshmode/mesh/__init__.py: Mesh.facial_adjacency_groups"]}
{"id": "C108", "title": "Drawing a two-dimensional mesh shows its elements and their neighbours", "statement": "draw_2d_mesh draws one closed polygon per element, in the order of the elements, whose sides are the faces of the element; with the flags it adds one label per element at its centre (no two elements have the same label), one number at each vertex, one number per face of each element, inside the element, one arrow for each ordered pair of different elements that share a vertex, from near the first to near the second, and sets the limits once, to the smallest box around the vertices, and each kind of call is made only if its flag is set. It fails if the ambient dimension is not two. draw_curve puts a marker at each vertex and one line through the nodes of each element, and rejects meshes that are not curves in the plane.", "quantifier": "all meshes, all combinations of flags, all random numbers between zero and one, all set iteration orders; sides are compared with faces for triangles and quadrilaterals", "why_tests_cant": "The tests at most check that drawing does not fail.", "anchors": ["meshmode/mesh/visualization.py: draw_2d_mesh, draw_curve", "meshmode/mesh/processing.py: find_bounding_box"]}
{"id": "C109", "title": "The array context parallelises a kernel over the inames its metadata names", "statement": "PyOpenCLArrayContext.transform_loopy_program rejects kernels without the options return_dict and no_numpy. Otherwise it tags as element inames and splits as degree-of-freedom inames exactly the first and second subscripts of the values assigned (ElementwiseMapKernelTag), or of the arguments tagged FirstAxisIsElementsTag, or the inames tagged for it; a tag on the kernel is the same as one on its only output; no iname is both tagged and split, and none is split twice; the result does not depend on the order of instructions and inames; only a kernel without any of this metadata is handed to the base class, unchanged. PytatoPyOpenCLArrayContext.transform_dag removes the tags of results of loopy kernels and of their axes and changes nothing else.", "quantifier": "all kernels and graphs, with what loopy and pytato do with the requests left out", "why_tests_cant": "Tests run a few kernels and would notice at most a wrong result, not a missing or repeated transformation.", "anchors": ["meshmode/array_context.py: _transform_loopy_inner, _transform_with_element_and_dof_inames, PyOpenCLArrayContext.transform_loopy_program, PytatoPyOpenCLArrayContext.transform_dag"]}
{"id": "C110", "title": "Moving a mesh commutes with cutting, merging, splitting, cleaning and refining it", "statement": "Partitioning, merging, splitting the groups and removing unused vertices commute with affine_map and map_mesh: each fails on the moved meshes exactly if it fails on the meshes, and otherwise gives the moved result, with the same part numbers, global element numbers, adjacency and group maps. So does refining any number of times, with affine_map. The orientations of the elements are multiplied by the determinant of the matrix, so an affine map of positive determinant keeps the set of wrongly oriented elements and one of negative determinant exchanges it. A merged mesh cannot itself be moved if the facial adjacency of one of the meshes had been computed, a refined mesh not if only part of its elements were refined.", "quantifier": "all meshes, affine maps and (for conforming meshes) maps, all partitions and flags; merged meshes and split meshes can be moved themselves if conforming and (for merging) if no facial adjacency was computed", "why_tests_cant": "Tests partition and move a few meshes and never compare the two orders.", "anchors": ["meshmode/mesh/processing.py: affine_map, map_mesh, partition_mesh, merge_disjoint_meshes, split_mesh_groups, remove_unused_vertices, find_volume_mesh_element_orientations"]}
{"id": "C111", "title": "Computed adjacency depends on shared vertices alone", "statement": "The facial and nodal adjacency that a mesh computes from its vertices is a function of which faces and elements share vertices. Renumbering the vertices injectively, in the groups and in the dictionary of boundary tags, leaves the facial adjacency the same entry by entry and in the same order, and every element keeps its nodal neighbors; this holds in particular for remove_unused_vertices. Flipping elements with perform_flips keeps which elements have a face or a vertex in common. Two elements that are neighbors across a face are nodal neighbors.", "quantifier": "All well-formed element groups, dictionaries with distinct keys, injective renumberings and iteration orders of sets; for flips all flags and all groups whose reference faces the flip permutes.", "why_tests_cant": "Tests compute adjacency for a few generated meshes in the numbering of their generator; the sort by vertex number could leak into the result for other numberings, for instance where three faces share their vertices.", "anchors": ["meshmode/mesh/__init__.py:1613-1654", "meshmode/mesh/__init__.py:1695-1901", "meshmode/mesh/processing.py:1565-1591", "meshmode/mesh/processing.py:818-847"]}
{"id": "C112", "title": "Refinement keeps the orientation and the volume", "statement": "Refining a mesh of straight volume elements splits the orientation (determinant of the edges) of each refined element: the orientation of child j is that of the parent times the determinant for child j of the reference element, and elements that are not refined keep theirs. So after any number of refinements the sum of the orientations over the mesh, which is the volume up to a constant, is that of the first mesh if the children fill the reference element, and if all elements of the first mesh are positively oriented and the children of the reference element are too, find_volume_mesh_element_orientations finds all elements of the refined mesh positively oriented.", "quantifier": "All meshes of straight elements of one kind and dimension, all sequences of flags which each mark elements of one group only, all tessellations modepy may return; exact arithmetic.", "why_tests_cant": "Tests refine a few meshes a few times and do not compute orientations of the result; a permuted row of the template or a vertex found in the table of midpoints for the wrong edge gives an inverted element only for some flags.", "anchors": ["meshmode/mesh/refinement/no_adjacency.py:84-259", "meshmode/mesh/refinement/tessellate.py:171-290", "meshmode/mesh/processing.py:576-678"]}
{"id": "C113", "title": "The boundary mesh of a volume mesh is closed", "statement": "The mesh that make_face_restriction builds for BTAG_REALLY_ALL has no boundary of its own: when its facial adjacency is computed, no face of it lies in any boundary group, and each of its faces has a neighbor. At each ridge (the vertices of a face of a face) an even number of boundary faces of the volume mesh meet. If no three boundary faces meet at a ridge then each face of the boundary mesh has exactly one neighbor, namely the only other face of the boundary mesh with the same vertices.", "quantifier": "All meshes of simplices without repeated vertices in an element, of which no three faces share their vertices, any number of groups, both settings of per_face_groups. C113_even and C113_no_boundary also cover other shapes of element, given that each face of a face of an element lies on exactly one other face of the same element and that faces with the same vertices have the same ridges.", "why_tests_cant": "Tests build the boundary of a few meshes and never compute the adjacency of the result; one wrong vertex number in vol_to_bdry_vertices opens the surface at one edge only.", "anchors": ["meshmode/discretization/connection/face.py:131-383", "meshmode/mesh/__init__.py:1762-1901"]}
{"id": "C114", "title": "What leaves one element enters the next: sums over faces reduce to the boundary mesh", "statement": "If a quantity defined on the faces of the elements has opposite values on the two sides of each pair of neighbors in the computed facial adjacency, its sum over all faces of all elements is its sum over the faces in BTAG_REALLY_ALL. If it depends on the vertices of the face, the sum is that over the elements of the boundary mesh made by make_face_restriction for BTAG_REALLY_ALL, whose elements list the vertices of their face in the same order. So the boundary mesh is consistently oriented if the volume mesh is: for plane triangles which find_volume_mesh_element_orientations finds positively oriented, and which lie on different sides of their common faces, as many elements of the boundary mesh begin as end at each of its vertices, and the area of the mesh is the one enclosed by the boundary mesh; in three dimensions each edge is run through as often in one direction as in the other if the same is true of neighbors at their common face. It is true of tetrahedra which are positively oriented and lie on different sides of their common faces, and their volume is the one enclosed by the boundary mesh. In both cases the divergence theorem holds exactly for affine vector fields: the flux through the boundary mesh is the divergence times the area or volume of the mesh.", "quantifier": "All meshes no three faces of which share their vertices, any shapes and number of groups, both settings of per_face_groups, all quantities with values in a commutative group.", "why_tests_cant": "A flux balance over a test mesh does not find a face that is in no group, or in two, when the quantity happens to vanish there; and the direction of boundary elements is never tested.", "anchors": ["meshmode/discretization/connection/face.py:131-383", "meshmode/mesh/__init__.py:1762-1901", "meshmode/mesh/processing.py:576-646"]}
{"id": "C115", "title": "Numerical fluxes cancel across the interior faces", "statement": "For interior faces with coinciding nodes, the result of the opposite-face connection at a node is the value at the node at the same place on the other side. Applied twice, it gives back the array. For weights that are the same at both nodes, the weighted sum of the result over all nodes is that of the array; a flux computed at each node from the values on this and on the other side, that changes sign when they are swapped, has weighted sum zero; and so has a flux that does not change when they are swapped, for weights of opposite sign on the two sides, as the components of the normal vector have.", "quantifier": "All meshes with symmetric interior adjacency (such as computed adjacency, by C29_computed_adjacency), any number of groups, all arrays, all fluxes; affine maps of adjacency groups that keep distances and undo each other (such as the identity, C115_identity_moves).", "why_tests_cant": "A conservation test checks a few fluxes up to rounding and discretization error, on meshes that are symmetric; a node paired with the wrong node of the right face leaves most sums unchanged.", "anchors": ["meshmode/discretization/connection/opposite_face.py:48-528", "meshmode/discretization/connection/direct.py:587-870"]}
{"id": "C116", "title": "Numerical fluxes cancel between the parts of a distributed mesh", "statement": "For two parts of a mesh whose common faces have coinciding nodes, the result of the partition connection at a node is the value at the node at the same place on the other part. Values sent to the other part and back are the same. For weights that are the same on both sides, the weighted sum of what a part receives is that of what the other part has; a flux computed from the values on this and the other side, that changes sign when they are swapped, has opposite weighted sums on the two parts; so has a flux that does not change, for weights of opposite sign, as the components of the normal vector have. So in a distributed computation, the sum of the flux over the interior faces and the faces to neighboring parts, over all parts, is zero.", "quantifier": "All partitioned meshes with symmetric adjacency between the parts, any number of parts and groups, all arrays, all fluxes; affine maps of adjacency groups that keep distances and undo each other.", "why_tests_cant": "Conservation across ranks is not tested; an exchange test uses smooth functions, for which values at nearby nodes are nearly the same.", "anchors": ["meshmode/discretization/connection/opposite_face.py:48-348", "meshmode/discretization/connection/opposite_face.py:536-637", "meshmode/distributed.py:164-398"]}
{"id": "C117", "title": "Partitioning a part again makes the same pieces as partitioning at once", "statement": "Let partition_mesh be applied to one of the parts it made. The resulting part has the same groups (element nodes, vertex numbers) and the same vertices as the part of the original mesh that has the same elements, the same faces are neighbors through the same affine maps, the same faces are listed under each boundary tag other than BTAG_PARTITION, and the same faces of other parts made of the same first part are recorded on the other side. Of faces towards other parts of the first step only the BTAG_PARTITION tag is left: which element is on their other side is not recorded any more.", "quantifier": "All meshes with valid facial adjacency, any number of groups, all assignments in both steps (sorted element lists, distinct part identifiers).", "why_tests_cant": "Tests partition a mesh once; no test partitions a part.", "anchors": ["meshmode/mesh/processing.py:131-570"]}
{"id": "C118", "title": "The boundary elements of the parts of a mesh are those of the whole mesh", "statement": "Restrict a mesh and each of its parts (partition_mesh) to a boundary tag other than BTAG_PARTITION with make_face_restriction. The restriction exists for a part exactly if it exists for the whole mesh, the boundary meshes have the same number of groups, each boundary element of the whole mesh appears, with its nodes and its vertices, in the same group of exactly one part, and the elements a part gets keep their order. So a sum over a boundary (a boundary integral) can be computed part by part.", "quantifier": "All well-formed meshes with complete facial adjacency, all partitions (sorted element lists, distinct part identifiers), all tags other than BTAG_PARTITION, with and without per_face_groups, any resampling of the nodes.", "why_tests_cant": "Tests compare the connections of parts with manufactured values on a few meshes; none compares the boundary meshes of the parts with that of the whole mesh.", "anchors": ["meshmode/discretization/connection/face.py:170-383", "meshmode/mesh/processing.py:407-570"]}
{"id": "C119", "title": "Refining a part of a mesh gives the part of the refined mesh", "statement": "Refine a mesh and, with the flags of its elements, a part of it made by partition_mesh (RefinerWithoutAdjacency). If the whole mesh can be refined, so can the part. The children of the elements of the parts, by the records of the refiner, are a partition of the refined mesh. The part of the refined mesh made of the children of the part's elements has the same groups as the refined part, and the same elements, with the same nodes, in the same order. If the vertices are where the nodes say in both refined meshes, the vertices of corresponding elements are at the same points, although they may be numbered differently.", "quantifier": "All meshes with vertex numbers, all partitions (sorted element lists, distinct part identifiers), all refine flags, any refiner holding the mesh (also after earlier refinements), any number of groups, any geometry where the children of an element depend on its own nodes only (proved for the resampling the code does).", "why_tests_cant": "Tests refine whole meshes or partition whole meshes; none refines a part.", "anchors": ["meshmode/mesh/refinement/no_adjacency.py:84-259", "meshmode/mesh/processing.py:131-199"]}
{"id": "C120", "title": "A distributed computation does what the computation on the whole mesh does", "statement": "Partition a mesh, take the boundary discretizations of each part (interior faces, and faces to each connected part found by get_connected_parts), and make the opposite-face connection of each part and the inter-part connections between connected parts. If the nodes of the whole mesh match across its faces, so that its opposite-face connection is made, then all connections of the parts are made and can be evaluated. For arrays that agree with an array of the whole mesh, what each part gets at each node of its faces, from its own other elements or from another part, is what the whole mesh gets there. The sum over all parts of any flux of the two values is the sum over the whole mesh, and a flux that changes sign when the sides are swapped sums to zero over the parts. A restriction to the faces to part q exists exactly if get_connected_parts lists q.", "quantifier": "All meshes with consistent facial adjacency and no inter-part adjacency of their own, all partitions (sorted element lists, distinct part identifiers, any number of parts), any number of groups, any dimension, periodic or not (the maps of the adjacency being isometries inverse to each other), any arrays, any flux function; evaluation for at most 128 batches per group.", "why_tests_cant": "Tests send one function between two or three ranks and compare nodes; none compares a distributed computation with the same computation on one rank.", "anchors": ["meshmode/discretization/connection/opposite_face.py:389-637", "meshmode/discretization/connection/face.py:170-383", "meshmode/mesh/processing.py:101-570", "meshmode/distributed.py:479-490"]}
{"id": "C121", "title": "Projecting back from a refined mesh is the orthogonal projection", "statement": "Let the connection made by make_refinement_connection be inverted by L2ProjectionInverseDiscretizationConnection. What the inverse gives on an element of the coarse mesh is the function of the coarse space whose integral against every function of the space equals that of the function given piecewise on the children. So no function of the space has a smaller square distance from the given one, the integral is kept, and refining a function and projecting it back gives the same values at the nodes. The projection can be evaluated if no group is empty.", "quantifier": "All coarse and fine discretizations with the same reference nodes and bases, any number of groups, any dimension, any record of a refinement whose children tile the reference element, mixed refined and unrefined elements, all data; bases orthonormal, with affine functions in their span, quadrature exact for products of two functions.", "why_tests_cant": "Tests project one smooth function for a few orders and meshes and compare with a tolerance; orthogonality to the whole space and optimality are not tested, and order zero is not either.", "anchors": ["meshmode/discretization/connection/projection.py: L2ProjectionInverseDiscretizationConnection", "meshmode/discretization/connection/projection.py:90-130", "meshmode/discretization/connection/refinement.py: make_refinement_connection"]}
{"id": "C122", "title": "Integrals over a mesh survive refinement and projection", "statement": "Compute the integral of an array over a discretization as the sum over elements and nodes of quad_weights() times the area element (from num_reference_derivative of the nodes) times the values. For straight elements, the integral of an array, and of the product of two arrays, over the coarse mesh equals that of the arrays refined by make_refinement_connection over the refined mesh. The integral of any array of the refined mesh against a refined one equals the integral of its L2 projection against the coarse one. For curved elements the integrals over the children add up to that over the element whenever the rule is exact for the integrand on the element and its parts.", "quantifier": "All meshes of any reference and ambient dimension (also curves and surfaces in space), mixed refined and unrefined elements, any record of a refinement whose children tile the reference element, all data; spaces with an orthonormal basis that contains affine functions and is closed under the maps onto the children, rules exact for products of two functions.", "why_tests_cant": "Tests refine one mesh and compare a few interpolated functions within a tolerance; conservation of integrals of arbitrary data is not tested.", "anchors": ["meshmode/discretization/connection/refinement.py: make_refinement_connection", "meshmode/discretization/connection/projection.py: L2ProjectionInverseDiscretizationConnection", "meshmode/discretization/__init__.py: num_reference_derivative", "meshmode/discretization/__init__.py: Discretization.quad_weights"]}
{"id": "C123", "title": "Nodes, sums, integrals and norms over the parts of a mesh are those of the whole mesh", "statement": "The nodes of the discretization of a part made by partition_mesh are those of the discretization of the whole mesh on the elements the part was given. What is computed element by element from corresponding arrays corresponds. The rows the parts hold for a group are a rearrangement of the rows of the whole array, so sums over elements add up, the integrals over the parts add up to the integral over the mesh, flat_norm of the parts' arrays together is flat_norm of the whole array for every order, and the norms that the parts compute on their own combine (powers of the order add, the maximum of the maxima is taken) to the norm of the whole.", "quantifier": "All meshes with any number of groups, all valid partitions, all arrays, orders 0 < p < infinity, and infinity.", "why_tests_cant": "Tests compare the number of elements and nodes of a few partitions; no test compares norms or integrals over parts with those of the whole mesh.", "anchors": ["meshmode/mesh/processing.py: partition_mesh", "meshmode/discretization/__init__.py: Discretization.nodes", "meshmode/dof_array.py: flat_norm"]}
{"id": "C124", "title": "Moving a mesh moves its discretizations and boundaries, and scales integrals by the determinant", "statement": "The nodes of a discretization of an affinely mapped mesh are the mapped nodes of the same discretization of the mesh. Restricting the mapped mesh to a boundary (or to interior or all faces) succeeds exactly when restricting the mesh does, gives the same boundary elements, vertices and connection batches, and the mapped boundary nodes. Integrals computed from these nodes, the quadrature weights and the differentiation matrices are kept by rigid motions in every dimension of element and space, are multiplied by the square root of s^dim if A^T A = s, and by the absolute value of det A on volume meshes.", "quantifier": "All meshes with any number of groups, all affine maps, all sets of unit nodes, all face selections with shared or per-face groups, all arrays to integrate.", "why_tests_cant": "Tests rotate or map a few meshes and compare the vertices; no test compares discretizations, boundary restrictions or integrals before and after.", "anchors": ["meshmode/mesh/processing.py: affine_map", "meshmode/discretization/__init__.py: Discretization.nodes", "meshmode/discretization/connection/face.py: make_face_restriction"]}
{"id": "C125", "title": "Discretization.nodes gives the same nodes whenever it is called, and they are where the unit nodes are mapped", "statement": "Discretization.nodes(cached) gives the same contents, or raises the same exception, whatever calls came before and with which flags; two calls give the same object exactly if a call not after the earlier one had cached=True; a call warns exactly if it has cached=False and an earlier one had cached=True. It raises ElementGroupTypeError exactly if some group is not nodal. There is one frozen DOFArray for each axis with the shape of the discretization's arrays. If the unit nodes are those of the mesh, the nodes are the nodes of the mesh unchanged. In general each node is the image of its unit node under the element's map, up to the tolerance for comparing unit nodes times the Lipschitz constant of that map.", "quantifier": "All discretizations with any number of groups, all sequences of calls, all unit nodes and tolerances, all bases for which resampling works.", "why_tests_cant": "Tests call nodes() on a few discretizations whose unit nodes either coincide with those of the mesh or are far from them; the order of cached and uncached calls and the tolerance are not tested.", "anchors": ["meshmode/discretization/__init__.py: Discretization.nodes", "meshmode/discretization/poly_element.py: from_mesh_interp_matrix"]}
{"id": "C126", "title": "Merging meshes and splitting groups keep nodes, integrals and norms", "statement": "The discretization of the result of merge_disjoint_meshes (with or without single_group) can be given nodes if the discretizations of the given meshes can, and has on each element the nodes of the element it is a copy of; so has that of the result of split_mesh_groups. If arrays correspond in this way, so do the arrays computed from them element by element; the integral over the merged mesh is the sum of the integrals over the meshes, the integral over the split mesh that over the original; the rows are the same up to their order, and flat_norm gives the same as for the given arrays together.", "quantifier": "All meshes that can be merged, all flags for splitting, all arrays, all reference elements and resampling matrices, all orders of norms.", "why_tests_cant": "Tests merge two meshes and look at the result's groups, and split one mesh; nodes, integrals and norms afterwards are not compared for arbitrary meshes.", "anchors": ["meshmode/mesh/processing.py: merge_disjoint_meshes", "meshmode/mesh/processing.py: split_mesh_groups", "meshmode/discretization/__init__.py: Discretization.nodes", "meshmode/dof_array.py: flat_norm"]}
{"id": "C127", "title": "Adjacency lists each face once, in meshes and in their parts", "statement": "If no three faces share their vertices, the facial adjacency computed from vertices lists no face of an element twice among the groups to other elements, and no boundary tag lists a face twice. Both carry over to every part that partition_mesh makes, counting a part's interior groups and its groups to other parts together; and no part has interior or inter-part groups without faces.", "quantifier": "All meshes whose adjacency refers to existing faces, all partitions, all parts.", "why_tests_cant": "Tests compare numbers of faces and look up neighbours for a few meshes; a face listed twice would go unnoticed by look-ups, though it would be counted twice in fluxes.", "anchors": ["meshmode/mesh/processing.py: _get_mesh_part", "meshmode/mesh/processing.py: _create_self_to_self_adjacency_groups", "meshmode/mesh/processing.py: _create_self_to_other_adjacency_groups", "meshmode/mesh/processing.py: _create_boundary_groups", "meshmode/mesh/__init__.py: _compute_facial_adjacency_from_vertices"]}
{"id": "C128", "title": "Box meshes are positively oriented and have the volume of the box", "statement": "For a mesh from generate_box_mesh, find_volume_mesh_element_orientations succeeds and gives for each element the product of the widths of its cell (half of it for \"X\" meshes). If the coordinates increase along all axes all elements are positively oriented. The sum over the elements is the volume of the box, times the factorial of the dimension for simplices; for generate_regular_rect_mesh it is the volume of the box between a and b.", "quantifier": "All coordinates along the axes, all numbers of cells, dimensions 1 to 3, all mesh types, simplices and tensor product elements, over any ordered field.", "why_tests_cant": "Tests check orientations of a few box meshes of fixed size; they cannot cover uneven coordinates and all numbers of cells.", "anchors": ["meshmode/mesh/generation.py: generate_box_mesh", "meshmode/mesh/generation.py: generate_regular_rect_mesh", "meshmode/mesh/processing.py: find_volume_mesh_element_orientations"]}
{"id": "C129", "title": "Element orientations follow the elements through merging, splitting and partitioning", "statement": "If find_volume_mesh_element_orientations succeeds for the meshes given, it succeeds for the result of merge_disjoint_meshes (with or without single_group), of split_mesh_groups, for each part of partition_mesh and for the result of remove_unused_vertices, and gives each element the orientation it had before. After merging the values are those of the meshes one after the other; for a part they are those of its elements in order; removing unused vertices changes neither values nor exceptions.", "quantifier": "All meshes with valid vertex numbers, all element types (unknown ones when tolerated), all flags and all partitions.", "why_tests_cant": "Tests check orientations of meshes as generated; whether renumbered vertices still give the same orientation for every mesh is not tested.", "anchors": ["meshmode/mesh/processing.py: find_volume_mesh_element_orientations", "meshmode/mesh/processing.py: merge_disjoint_meshes", "meshmode/mesh/processing.py: split_mesh_groups", "meshmode/mesh/processing.py: _get_mesh_part", "meshmode/mesh/processing.py: remove_unused_vertices"]}
{"id": "C130", "title": "The boundary mesh of a box mesh encloses the box", "statement": "For generate_box_mesh with increasing coordinates, made of triangles (mesh_type X or not) or tetrahedra, the mesh that make_face_restriction makes for BTAG_REALLY_ALL is closed and consistently oriented: at each of its vertices as many elements begin as end, or each edge is run through as often in one direction as in the other. The flux of any affine vector field through it, with the normals that the vertex order of its elements gives, is the divergence of the field times the area or volume of the box. More generally, if no point inside an element of a mesh belongs to another element, and all are positively oriented, neighbors are on different sides of their common face, so that the same holds with the area or volume of the mesh (C114). affine_map with an invertible matrix keeps elements from overlapping, and so do partition_mesh (for each part), split_mesh_groups, remove_unused_vertices, perform_flips, and merge_disjoint_meshes if the meshes merged do not overlap each other. RefinerWithoutAdjacency.refine keeps straight elements from overlapping, however often it is called with flagged elements in one group, if the children of the reference element do not overlap, as those of the triangle. So the triangles or tetrahedra of a mesh without overlaps may be oriented in any way: after make_mesh with force_positive_orientation its boundary mesh encloses the sum of their absolute areas or volumes.", "quantifier": "All boxes with any numbers of points along the axes and any increasing coordinates in an ordered field, all tags, both settings of per_face_groups; all meshes of triangles or tetrahedra for the general statement.", "why_tests_cant": "Tests check the divergence theorem on a few meshes up to discretization error and rounding; that normals point outward on each side of every box is not tested.", "anchors": ["meshmode/mesh/generation.py: generate_box_mesh", "meshmode/discretization/connection/face.py: make_face_restriction", "meshmode/mesh/processing.py: find_volume_mesh_element_orientations"]}
