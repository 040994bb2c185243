# Design

Formal model of parts of meshmode (`/repo`) in Lean 4, with the properties of
`properties.jsonl` proved about the model.

## Approach

* Arrays are modelled as `List`s (or functions where only lookup matters),
  element/vertex/face ids as `Nat` (`Int` where the code uses -1 as a marker).
  Machine integer widths and overflow are not modelled.
* Exceptions and failed asserts are values (`Except`/`Option`).
* Floating point data are replaced by an arbitrary commutative ring, field or
  an abstract type with the operations used; rounding is not modelled.
* Calls into numpy, modepy, MPI, pymetis, gmsh, firedrake, loopy are replaced by
  their documented behaviour, or are parameters of the model.
* Each area has definitions that follow the code, a specification, lemmas,
  property theorems (`C<nn>_…`) and, beside each theorem, an example that meets
  its hypotheses. Small areas use one file; larger ones are divided into a model
  file and property files.
* A definition that follows code cites the file and lines in its comment. A
  definition marked "Specification or proof vocabulary, no code" is used to state
  or prove theorems, or is an example; it is not part of the model.
* Where the code does not have a property, the negation is proved for a concrete
  witness (`*_counterexample`) and the strongest true part is proved (`*_partial`).

## Plan per property

| id | model | proof |
|----|-------|-------|
| C01 | base numbers = prefix sums; search over groups | induction on group list |
| C02, C03 | face list with vertex sets, stable sort, pairing of consecutive equal keys, rows in both directions | sorted-list induction; count of equal keys |
| C04 | vertex-to-element table, per-element union, CSR | set membership, prefix sums |
| C05, C06, C07 | tag completion, union, coverage counter | list membership/counting |
| C08 | state machine of the cached fields | induction over access sequences |
| C09-C13 | partition_mesh function by function | index-map lemmas (rank/select) |
| C14, C15 | merge and split | offset arithmetic, induction over inputs |
| C16 | glue on top of boundary rows and a face matching | list membership |
| C17, C18 | affine maps over a commutative ring with matrices | matrix algebra (Mathlib) |
| C19, C20 | refiner bookkeeping, edge-midpoint table | invariant over the fold on elements |
| C21 | box mesh index arithmetic | mixed-radix arithmetic |
| C22-C26 | batches as index lists plus matrices | finite sums over lists |
| C27-C30 | face restriction/embedding/opposite face/greedy batching | list induction, well-founded recursion |
| C31, C32 | message passing as a nondeterministic transition system | invariant over all schedules |
| C33, C34 | list to map; CSR by counting | list induction |
| C35 | norms as folds over trees | structural induction |
| C36-C38 | thread-local state machine; pickle state | induction over event sequences |
| C39-C41 | derivative matrix products, factories, chains | permutation induction, list induction |
| C42, C43 | visualizer cache, offsets | induction over writes |
| C44 | recursive bisection over an abstract ordered field | well-founded induction |
| C45, C46 | flips, vertex removal | index-map lemmas |
| C47-C49 | gmsh receiver tags, Firedrake adjacency and transfer | list membership |
| C50, C51 | index arithmetic of generators | arithmetic |

All properties can be expressed in such a model; the numeric part of meshmode
(quality of interpolation, convergence, floating point tolerance behaviour) is
outside it.

## What is modelled

| Lean files | code | simplified or left out |
|---|---|---|
| Mesh/Types, Numbering | `mesh/__init__.py`: element groups, adjacency groups, base numbers; `find_group_indices` | an element group is its kind, face vertex lists, vertex rows and opaque nodes; integer widths |
| Mesh/Facial* | face matching, `_compute_facial_adjacency_from_vertices`, merging and completing boundary groups | the order of tags comes from a Python set: any enumeration |
| Mesh/Nodal, Csr | `_compute_nodal_adjacency_from_vertices` | |
| Mesh/Lazy | normalisation in `make_mesh`, the two adjacency properties | computations are parameters |
| Mesh/Coverage | `mesh_has_boundary`, `check_bc_coverage`, `is_boundary_tag_empty` | |
| Partition/* | `partition_mesh` and its helpers | part identifiers are naturals |
| Mesh/Merge*, Split, Glue | `merge_disjoint_meshes`, `split_mesh_groups`, boundary matching and gluing | point search in gluing is a parameter (its contract is C44) |
| Mesh/Affine, Grid | `AffineMap`, `map_mesh`, `affine_map`, `make_mesh_grid` | exact field arithmetic |
| Mesh/Points | `find_point_permutation`, `find_point_to_point_mapping` | exact ordered field arithmetic |
| Mesh/Flip, Unused | element flips, `remove_unused_vertices` | basis functions are parameters |
| Mesh/Orient | element orientation, `force_positive_orientation` | ordered field instead of floating point; the outer product of the code is the determinant |
| Mesh/Consistency | `check_mesh_consistency`, `is_mesh_consistent` | adjacency arrays as type and shape; ordered field; the resampling matrix is a parameter |
| Mesh/Equal | `__eq__` of meshes, groups and adjacency | no NaN |
| Mesh/Rotate, BBox | `rotate_mesh_around_axis`, `find_bounding_box` | real numbers / ordered field |
| Connection/FlattenGroups | chained.py:78-264 with several groups: which new group and batch each pair of batches goes to | comparison of nodes (np.allclose) is a parameter |
| Gen/PeriodicFaces, Periodic, PeriodicProps | generation.py:1541-1549, 1616-1638: periodic sides of `generate_box_mesh` | `find_point_to_point_mapping` is a parameter with the properties of C44; change of the caller's dictionary |
| Connection/Modal | modal.py: both connections with their cached matrices | `la.inv` a parameter, exact arithmetic, array containers, shapes of arrays without elements |
| Connection/SameMesh | same_mesh.py; direct.py:384-451 with `__call__` of direct connections | `find_point_to_point_mapping` and `mp.resampling_matrix` parameters, exact arithmetic |
| Connection/RefineConn | connection/refinement.py; mesh/refinement/utils.py:87-128 | tessellation from modepy given, `find_point_to_point_mapping` and `mp.resampling_matrix` parameters, exact arithmetic |
| Connection/RefineGeo | mesh/refinement/tessellate.py:222-249; discretization/__init__.py:602-631 | one element and coordinate at a time, caches recomputed |
| Mesh/AsPython | mesh/__init__.py:172-173, 545-560, 629-640, 686-694, 778-790, 2007-2110 | generated text as syntax tree; evaluation of names (`ev`), readability of number literals (`isLit`), acceptance of unit nodes (`groupOk`) are parameters; classes of groups importable |
| Mesh/RandRot | mesh/tools.py:85-131 | real numbers, random numbers given |
| Mesh/IsAffine | mesh/__init__.py:432-449, 2238-2280 | exact arithmetic; inverse Vandermonde and differentiation matrices are parameters |
| Dof/InPlace | dof_array.py:233-238, 261-291 | store of arrays; flat arrays, no broadcasting; deprecation warning not modelled |
| Distributed/Connected | distributed.py:479-490 | assertion as exception |
| Dof/Container | dof_array.py:153-163, 170-188, 415-475 | container types other than DOFArray are trees with keys |
| Gen/FromVertices | mesh/generation.py:489-575 | exact arithmetic, `la.solve` and unit nodes are parameters, final `make_group` call |
| Gen/Sphere | mesh/generation.py:581-728 | real numbers; cube shape of modepy and refinement are parameters |
| Gen/Revolution | mesh/generation.py:735-804 | real numbers; unit nodes and `la.solve` as in Gen/FromVertices |
| Gen/Rect | mesh/generation.py:1644-1716 | exact `linspace`; deprecation warning left out |
| Gen/Warp | mesh/generation.py:1723-1835 | real numbers; meshes by Gen/Rect, map_mesh and gluing are C53 and C16 |
| Vis/Fields | discretization/visualization.py:79-214, 837-842, 880-883 | object arrays have one axis; connection and check are parameters |
| Vis/Hdf | discretization/visualization.py:940-1105 | data sets are lists of rows; cell node counts are a parameter |
| Vis/Xdmf | discretization/visualization.py:1115-1290 | attrs, data set options and the XML tree left out |
| Vis/Parallel | discretization/visualization.py:721-776, 887-932 | writing a file is one step; contents opaque but for the manifest |
| Interop/FiredrakeNodal | interop/firedrake/mesh.py:62-180 | the section is a function from DMPlex points to vertex numbers |
| Interop/FiredrakeImport | interop/firedrake/mesh.py:419-497, 504-777 | points opaque; signs of volume elements and node flips are parameters; curves always end at np.transpose |
| Interop/FiredrakeExport | interop/firedrake/mesh.py:798-946 | Firedrake is a parameter: topology and cell numbers from coordinates and cells |
| Interop/FiredrakeExportNodes | interop/firedrake/mesh.py:956-986, connection.py:787-821, mesh/processing.py:714-735 | exact arithmetic, barycentric coordinates, one axis at a time; rint is any function fixing 0 and 1 |
| Interop/FiredrakeReference | interop/firedrake/reference_cell.py:38-115, connection.py:583-609, 686-740 | exact arithmetic; vertices of ufc_simplex and modepy written out |
| Gen/Curves | mesh/generation.py:104-376 | real numbers, one parameter at a time; `n_gon` by array shapes |
| Gen/TorusSurface | mesh/generation.py:896-1072 | real numbers |
| Gen/WarpRefine | mesh/generation.py:1843-1930 | real numbers and one value for all non-finite coordinates; matrices of modepy given; at most a given number of iterations; type check of the argument and logging left out |
| Gen/Urchin | mesh/generation.py:1079-1184 | real numbers; the harmonic is any function of the angles, the refined mesh any mesh |
| Refine/Geometry | mesh/refinement/tessellate.py:110-127, 171-290 (with no_adjacency.py:84-259) | exact arithmetic; modepy's nodes, templates and resampling matrices given; one kind of elements |
| Refine/Uniform | mesh/refinement/__init__.py:51-68, mesh/refinement/utils.py:64-76 | consistency check of `make_mesh` not run |
| Gen/FromSimplices | mesh/io.py:514-572 (with mesh/processing.py:685-744, 781-815) | exact arithmetic; basis and resampling matrix given; of `make_mesh`'s checks only that of orientation |
| Mesh/Json | mesh/io.py:577-621 | arrays as nested lists with their shapes; computed nodal adjacency given |
| Mesh/GmshDriver | mesh/io.py:462-477, 491-505 | POSIX paths; the program itself and the reader are not modelled here |
| Vis/Lifecycle | discretization/visualization.py:252-261, 564-627, 693-719, 1374-1419; connection/same_mesh.py:43-87; discretization/__init__.py:188-200, 387-432; mesh/visualization.py:349-370 | objects as numbers; a connectivity is its kind and the groups it was made from |
| Mesh/Export | mesh/visualization.py:216-342, 377-413; discretization/visualization.py:1453-1501 | what is handed to the writers of the file formats; TikZ names as data, coordinates not rounded |
| Connection/CrossFace | discretization/connection/opposite_face.py:48-348 | over the reals; least squares for more than two reference dimensions and the search of C39 are parameters with a specification; at least one element and node |
| Discr/Arrays | discretization/__init__.py:387-578, dof_array.py:171-255 | axis tags left out; array contexts are numbers |
| Discr/Quadrature | discretization/poly_element.py:247-268, 302-359, 428-458, 505-591 | over the reals; modepy's mass matrix, tensor product nodes and weights by their formulas; np.allclose a relation |
| Connection/Inspect | discretization/connection/__init__.py:140-159, connection/direct.py:465-478 | point matching as in Mesh/Points; memoization left out |
| Interop/NodalDG | interop/nodal_dg.py:90-182 | Octave state is a map from names to values, its programs are parameters, oct2py passes values on faithfully (it may return single entries as scalars); int32 conversion, make_mesh checks and process handling left out |
| Mesh/AdjCheck | mesh/refinement/utils.py:135-223, mesh/tools.py:50-67 | exact arithmetic over an ordered field; search tree and least squares are parameters; elements have mesh-wide numbers |
| Interop/FiredrakeFields | interop/firedrake/connection.py:139-577 | function data by node and component, data types and spaces as values; conversions of arrays between array contexts and conversion of data types in assignments left out |
| Connection/PartExchange | (no code of its own) | composes Partition, Face, Opposite and PartConn: parts of a mesh against the whole mesh |
| Connection/Traces | (no code of its own) | composes Face, FaceEmbed, Partition and Connected: traces on all faces from those on parts of the faces |
| Distributed/Exchange | distributed.py 230, 305-315, 382-390 | payload and connection of the boundary setup; composes Comm, Connected and PartExchange |
| Interop/FiredrakeTags | interop/firedrake/mesh.py 183-225, 264-412 | boundary groups and markers of imported meshes, with cells_to_use; facet data read from Firedrake are parameters, markers are natural numbers |
| Connection/ComputedParts | mesh/processing.py 101-570 with mesh/__init__.py 1733-2000 | no new code; adjacency of parts compared with adjacency computed from the vertices of the part |
| Partition/MergeBack | mesh/processing.py 101-570, 874-963 | no new code; partition of a merged mesh by origin compared with the meshes merged |
| Mesh/Draw | mesh/visualization.py:51-209 | calls to matplotlib as a list, without styles; random numbers a parameter; exact field arithmetic; class test of groups a parameter |
| Dof/Transform | array_context.py:62-283 | a kernel is its tags, assignees, arguments and inames; loopy and pytato are not modelled, a transformed program is the list of requests |
| Mesh/Commute | mesh/processing.py:101-570, 576-680, 874-1027, 1322-1465, 1565-1591 | no new code: compositions of the models of the functions |
| Mesh/RowOrder | mesh/__init__.py:1803-1896 | no new code: the order of rows in the model of computed adjacency |
| Refine/Commute | mesh/refinement/no_adjacency.py:84-259, mesh/processing.py:1372-1480 | no new code: composition of the models of refinement and affine maps |
| Mesh/Renumber | mesh/__init__.py:1613-1654, 1695-1901, mesh/processing.py:818-847, 1565-1591 | no new code: exact description of facial neighbors, and compositions with renumbering and flips |
| Refine/Volume | mesh/refinement/no_adjacency.py:84-259, mesh/processing.py:576-678 | no new code: orientations of refined meshes |
| Connection/ClosedBoundary | discretization/connection/face.py:367-376 | mesh of the boundary discretization; its facial adjacency is computed by the model of mesh/__init__.py:1762-1901 |
| Connection/Conservation | discretization/connection/face.py:131-383, mesh/__init__.py:1762-1901 | no new code: sums over faces |
| Connection/FluxCancel | discretization/connection/opposite_face.py:48-528 | no new code: sums over interior faces |
| Connection/PartFlux | discretization/connection/opposite_face.py:48-348, 536-637 | no new code: sums over faces between parts |
| Partition/TwoSteps | mesh/processing.py:101-570 | no new code: partitioning a part |
| Connection/PartBoundary | face.py:170-383, processing.py:407-570 | no new model; boundary meshes of the parts and of the whole mesh |
| Refine/PartRefine | no_adjacency.py:84-259, processing.py:131-199 | no new model; refining a part against taking a part of the refined mesh |
| Connection/WholeFlux | opposite_face.py:389-637, distributed.py:479-490 | the discretization of a boundary mesh (nodes by resampling, abstract); the computation on the parts against that on the whole mesh |
| Connection/ProjectRefine | projection.py:90-130, 196-266, refinement.py:38-171 | weights, tabulated basis functions and Vandermonde matrices written out; differentiation matrices and quadrature weights are data; orthogonality with respect to Lebesgue measure |
| Connection/RefineIntegral | discretization/__init__.py:551-578, 641-698 | one entry of num_reference_derivative and quad_weights; composes RefineConn, RefineGeo and ProjectRefine |
| Connection/PartSums | discretization/__init__.py:602-635; composes Partition/Model and Dof/Norm | one coordinate of `nodes`, group by group |
| Connection/MoveDiscr | face.py:348-351; composes Mesh/Affine, Connection/PartSums, Connection/Face | resampling of one element's points; the rest is composition |
| Discr/Nodes | discretization/__init__.py:432, 580-638; poly_element.py:124-134 | the flattened unit nodes are compared as lists of points; tags and name hints left out |
| Connection/MergeSplit | mesh/processing.py:874-1027; discretization/__init__.py:409, 580-638 | the group factory as a function of the kind of a group |
| Partition/Rows | mesh/processing.py:202-546; mesh/__init__.py:1762-2000 | uses Partition/Model and Mesh/Facial; each face is listed once |
| Gen/BoxVolume | mesh/generation.py:1191-1716; mesh/processing.py:576-678 | uses Gen/Box and Mesh/Orient; orientations and volume of box meshes |
| Mesh/OrientFollow | mesh/processing.py:465-680, 874-1027, 1565-1591 | uses Mesh/Orient, Mesh/Merge, Mesh/Split, Mesh/Unused, Partition/Model; orientations after merging, splitting, partitioning |
| Connection/Enclosed | discretization/connection/face.py:134-401, mesh/processing.py:576-678 | no new code: closed boundary surface and enclosed volume of a mesh of tetrahedra, divergence theorem for affine fields |
| Connection/Apart | mesh/generation.py:1191-1637, discretization/connection/face.py:134-401 | no new code: uses Connection/Enclosed, Gen/BoxVolume, Gen/BoxCover; elements that do not overlap, the boundary of boxes |
| Connection/ApartParts | mesh/processing.py:465-570, 685-847, 874-1027, 1565-1591, mesh/__init__.py:978-1130 | no new code: uses Connection/Apart, Mesh/OrientFollow, Mesh/Orient; elements that do not overlap in parts, merged, split and flipped meshes |
| Refine/Apart | mesh/refinement/no_adjacency.py:84-259 | no new code: uses Refine/Volume, Connection/Apart; refined elements that do not overlap |
| Refine/ApartTensor | mesh/refinement/no_adjacency.py:84-259 | no new code: uses Refine/Apart; the halves of squares and cubes do not overlap |
| Mesh/Gmsh | `GmshMeshReceiver` | parsing of files (gmsh_interop); nodes opaque |
| Refine/* | `RefinerWithoutAdjacency`, tessellation, refinement connection | coordinates are parameters; meshes without vertices |
| Gen/Box* | `generate_box_mesh`, all dimensions, element types and mesh types | periodic branch; face vertex order of modepy is written out for the shapes used |
| Gen/Torus | `make_curve_mesh`, `generate_torus_and_cycle_vertices` | nodes computed by a given map |
| Connection/Direct*, Chained, Flatten | direct and chained connections, matrices, merged picks, flattening | resampling matrices and point picks from modepy are parameters; loopy kernels are their documented sums |
| Connection/Face, FaceEmbed | face restriction and embedding | resampling of nodes to a face is a parameter |
| Connection/NodeBatches, Opposite, PartConn | opposite-face and inter-part connections | finding reference nodes is a parameter, modelled in Connection/CrossFace |
| Connection/Projection | `L2ProjectionInverseDiscretizationConnection` | weights and bases are parameters |
| Discr/Derivative, Factory | `num_reference_derivative`, group factories | differentiation matrices from modepy |
| Distributed/* | mesh distribution, boundary setup, partitioner input | MPI delivers each message once, in any order; pymetis not modelled |
| Dof/* | pickling context, pickling, consistency check, `flat_norm` | array contexts are abstract |
| Vis/Connectivity, Vis/Write | VTK connectivity, repeated writes | file formats, mayavi, matplotlib |
| Interop/* | Firedrake facial adjacency and transfer | Firedrake data are given arrays |

Not modelled: the program transformations themselves (loopy, pytato) that `array_context.py` asks for,
the generic container functions inherited from arraycontext, `read_gmsh`/`generate_gmsh` (calls of
gmsh_interop), mayavi and matplotlib plots of `discretization/visualization.py`, the download in
`nodal_dg.py`, `get_finat_element_unit_nodes`, and all floating point behaviour.

## Where the code does not have the property

Each line is a theorem `…_counterexample` on concrete data; the claim in
MANIFEST.json is then partial, or its quantifier excludes the case.

| theorem | what happens |
|---|---|
| C03_three_sides | three elements at one vertex set: one of them gets no neighbour |
| C05_btag_all | untagged and excluded boundary faces together: excluded faces enter BTAG_ALL |
| C13_really_all | inter-part faces are missing from BTAG_REALLY_ALL of a part |
| C14_adjacency_lost | merging drops adjacency and boundary tags that an input had |
| C16_glued_face_still_boundary | glued faces stay in BTAG_ALL and BTAG_REALLY_ALL |
| C17_not_transported | an affine map that does not commute with the periodicity breaks it |
| C18_eq_raises | comparing affine maps with different parts present raises |
| C19_two_groups, C19_hexahedra | refining two groups at once, or hexahedra, loses conformity |
| C22_repeated_target, C22_no_matrix | batches that set an element twice; connections without batches |
| C25_broken_chain | chains whose ends do not fit are accepted |
| C26_groups, C26_middle, C26_repeated | flattening changes the effect of such chains |
| C29_all_faces | is_surjective although boundary elements stay unset |
| C30_nan | batching never ends when a node is not close to itself |
| C32_empty_part | a rank whose part is empty waits forever |
| C35_empty_group | norm of order infinity of an empty group raises |
| C37_frozen | frozen arrays cannot be pickled |
| C41_groups | the projection inverse swaps group numbers |
| C42_twice | every write shrinks the elements again |
| C43_order_zero | cell types without cells |
| C44_* | recursion without end, exception instead of -1, dimension zero, no permutation |
| C47_* | marks on interior faces, mixed meshes and repeated numbers are lost or refused |
| C48 | element and neighbour columns in different orders |
| C50_shifted | the whole grid is moved by `offset[0]` |
| C55_adjacency | adjacency passed along with `force_positive_orientation` is dropped |
| C55_not_affine | a quadrilateral with reflex first corner is negative before and after its flip |
| C55_four_dimensions | the reported orientation has the wrong sign in dimension four |
| C56_inter_part, C56_elements_type, C56_empty_facial | wrong adjacency arrays pass the consistency check |
| C56_no_vertices | the check raises ValueError for volume meshes without vertices |
| C57_face_type, C57_raises, C57_history | equality ignores `face_id_dtype`, can raise, depends on whether adjacency was asked for |
| C59_curved | nodes of curved elements lie outside the bounding box |
| C60_really_all | faces glued periodically are still in BTAG_REALLY_ALL |
| C60_empty | periodic axis without points: IndexError |
| C60_decreasing | decreasing coordinates with periodic: negative tolerance, exception |
| C61_order | nodal group of another order than the modal one: wrong number of coefficients, not noticed |
| C65 | string tags are printed without quotes and `BTAG_PARTITION` is not imported: running the code fails (`C65_string_tag_counterexample`, `C65_raises`); groups without elements lose axes (`C65_empty_group_counterexample`); `face_id_dtype` is lost (`C65_face_id_counterexample`); other tags make `as_python` fail (`C65_other_tag_counterexample`) |
| C66 | deflection zero gives a half turn (`C66_deflection_zero_counterexample`) |
| C67 | groups of points raise an exception (`C67_points_counterexample`), tensor product groups always report False (`C67_tensor_counterexample`) |
| C68 | `x += y` does nothing for arrays that do not work in place (`C68_immutable_counterexample`), is not undone by an exception (`C68_not_atomic_counterexample`), reads changed values if groups are shared in another order (`C68_aliasing_counterexample`) |
| C73 | `ensure_radius` divides by the square of the distance, so vertices and nodes leave the surface (`C73_vertex_counterexample`, `C73_node_counterexample`); triangles of a cell run along the diagonal in the same direction (`C73_orientation_counterexample`) |
| C74 | default corners with three sizes give a two-dimensional mesh (`C74_dimension_counterexample`) |
| C76 | complex arrays are written if the first component is real (`C76_mixed_counterexample`); different fields get one name (`C76_names_counterexample`) |
| C77 | one linear triangle, or a rank without cells, cannot be written (`C77_triangle_counterexample`, `C77_empty_counterexample`); options of the caller change (`C77_options_counterexample`); `overwrite=False` is ignored (`C77_overwrite_counterexample`) |
| C78 | a field called Nodes raises after the file was truncated, `overwrite=False` is ignored (`C78_overwrite_counterexample`); empty groups raise (`C78_empty_group_counterexample`) |
| C79 | a pattern without the rank is not refused, the result depends on the interleaving (`C79_same_name_counterexample`); the file is written before the missing manifest name is noticed (`C79_no_manifest_counterexample`) |
| C80 | elements sharing several vertices are listed several times (`C80_repeated`) |
| C81 | no curve in the plane can be imported (`C81_curves`); importing a surface changes the orientations in the Firedrake mesh (`C81_firedrake_data_counterexample`) |
| C82 | the permutations of `perm2cells` are the inverses of the documented ones (`C82_documented_counterexample`); coordinates of a mesh not agreeing on shared nodes are lost (`C82_discontinuous_counterexample`) |
| C83 | cells touching the marked boundary only in a vertex are missed with discontinuous coordinates (`C83_cells_counterexample`) |
| C84 | `n_gon` always raises (`C84_ngon_counterexample`); `clamp_piecewise` accepts half angles from pi to 2 pi, for which it divides by zero or has breakpoints out of order (`C84_clamp_counterexample`) |
| C85 | the documented map of torus and cruller has `sin(v)` for `cos(v)` in the second coordinate (`C85_documented_counterexample`) |
| C86 | elements with a vanishing coordinate are accepted whatever their error, the estimate being NaN (`C86_resolved_counterexample`) |
| C87 | urchins have points nearer than `min_rad`, since the range of the harmonic is taken before refinement (`C87_range_counterexample`) |
| C88 | with flagged elements in two groups, vertices of elements of the second are taken from the first (`C88_groups_counterexample`) |
| C91 | facial adjacency given by the user is not exported, shapes of groups without elements are lost (`C91_facial_counterexample`, `C91_empty_counterexample`) |
| C92 | for a mesh in the plane x = 0 the warning suggests `force_ambient_dim=0` (`C92_suggestion_counterexample`) |
| C93 | visualizers made without `vis_order` cannot be copied; copies keep the old real type; with `skip_tests` the old mesh's connectivity (`C93_default_counterexample`, `C93_fresh_counterexample`, `C93_skip_counterexample`) |
| C94 | `mesh_to_tikz` draws quadrilaterals with their diagonals (`C94_tikz_counterexample`) |
| C95 | Gauss-Newton returns one correction beyond the point whose residual was checked (`C95_newton_counterexample`) |
| C96 | `zeros_like` raises ValueError for arrays of a discretization without groups (`C96_no_groups_counterexample`) |
| C98 | `is_permutation` with a tolerance says yes for a connection that interpolates when applied (`C98_multiplier_counterexample`) |
| C98 | `is_permutation` says yes for a connection that is not a bijection (`C98_not_bijective_counterexample`) |
| C98 | `check_connection` passes for index arrays of different lengths (`C98_check_counterexample`) |
| C99 | `get_discr` after `set_mesh` of a curve in the plane loses a coordinate (`C99_ambient_counterexample`) |
| C100 | the computed nodal adjacency fails the check with a hanging vertex (`C100_hanging_counterexample`) |
| C100 | the check raises `IndexError` with larger elements in a later group (`C100_mixed_counterexample`) |
| C101 | `from_firedrake` with an object array as `out` raises `AttributeError` (`C101_out_counterexample`) |
| C101 | the constructor accepts mappings with negative entries that name a node twice (`C101_alias_counterexample`) |
| C105 | import_firedrake_mesh with cells_to_use raises if no exterior facet is on a cell used (`C105_defined_counterexample`); BTAG_INDUCED_BOUNDARY can be put on a wrong face, as follows from C48 (`C105_induced_counterexample`) |
| C106 | `C106_three_sides_counterexample`: with three faces of the same vertices, a part has fewer neighbours than recomputing its adjacency gives |
| C109 | a kernel that assigns to two arrays with the same subscripts has its iname split twice, although the second request names an iname that no longer exists (`C109_split_twice_counterexample`) |
| C117 | the part of a part knows no longer which element is on the other side of faces towards other parts of the first step (`C117_forgotten_counterexample`) |
| C121 | with order zero the L2 projection from a refined mesh is zero (`C121_order_zero_counterexample`) |
| C123 | flat_norm with ord=inf of an array on a part that has no elements in one of the groups raises an exception though the whole array has a norm (`C123_empty_group_counterexample`) |
| C130 | the elements of the boundary mesh of a quadrilateral box are not consistently directed (`C130_tensor_counterexample`) |
| C51_minor_cycle | vertex numbers of the minor cycle are wrong |

## Mutation tests

`seeded/LOG.jsonl` has one line per wrong variant of a model definition that was
tried, with the theorems that failed. A variant that no theorem rejected led to a
new or stronger theorem, named in the field `tightened`.

## Trusted base

* Lean 4.33.0 kernel; each theorem depends on at most `propext`,
  `Classical.choice`, `Quot.sound`. No axioms of our own.
* The faithfulness of the hand-written model to /repo (cited per definition).
* The documented behaviour of numpy (Verif/Np.lean and the definitions naming a
  numpy function) and of the external libraries that appear as parameters.
