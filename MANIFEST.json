{
 "claims": [
  {
   "property": "C01",
   "status": "proved",
   "theorems": [
    "TinyMesh.c01_construct_consistent"
   ],
   "note": "For every input and every object all of whose elements are owned by its arrays (fresh or used)."
  },
  {
   "property": "C02",
   "status": "proved",
   "theorems": [
    "TinyMesh.c02_manifold_accepted",
    "TinyMesh.c02_closed_accepted",
    "TinyMesh.c02_closed_no_holes"
   ],
   "note": "The condition on reallocation is stated exactly (Fits) for an arbitrary growth policy; closed meshes need none."
  },
  {
   "property": "C03",
   "status": "proved",
   "theorems": [
    "TinyMesh.c03_single_fan",
    "TinyMesh.c03_bowtie_reported"
   ],
   "note": "Accepted triangles form a single fan at each vertex; a vertex without single fan is reported unless one of the undefined-behaviour cases of C04 comes first."
  },
  {
   "property": "C04",
   "status": "partial",
   "theorems": [
    "TinyMesh.c04_defined_partial",
    "TinyMesh.c04_undefined_iff",
    "TinyMesh.c04_counterexample_triangle",
    "TinyMesh.c04_counterexample_unused"
   ],
   "note": "False as stated: counterexamples proved. Exact condition for undefined behaviour proved."
  },
  {
   "property": "C05",
   "status": "partial",
   "theorems": [
    "TinyMesh.c05_degenerate_dropped_partial",
    "TinyMesh.c05_no_degenerate_left",
    "TinyMesh.c05_counterexample"
   ],
   "note": "False as stated: counterexample proved. Holds for one degenerate triangle or enough proper triangles behind them."
  },
  {
   "property": "C06",
   "status": "proved",
   "theorems": [
    "TinyMesh.c06_positions_merged"
   ],
   "note": ""
  },
  {
   "property": "C07",
   "status": "partial",
   "theorems": [
    "TinyMesh.c07_report_partial",
    "TinyMesh.c07_counterexample",
    "TinyMesh.c07_report_any"
   ],
   "note": "False for triangles that share no edge with another triangle: counterexample proved; exact report proved."
  },
  {
   "property": "C08",
   "status": "partial",
   "theorems": [
    "TinyMesh.c08_clone_partial",
    "TinyMesh.c08_counterexample"
   ],
   "note": "False for meshes with an isolated triangle: counterexample proved; proved for all other meshes built in a fresh object."
  },
  {
   "property": "C09",
   "status": "partial",
   "theorems": [
    "TinyMesh.c09_obj_partial",
    "TinyMesh.c09_counterexample"
   ],
   "note": "False as stated: counterexample proved. Proved for OBJ files, which clear the old indices."
  },
  {
   "property": "C10",
   "status": "proved",
   "theorems": [
    "TinyMesh.c10_vertex_circulator",
    "TinyMesh.c10_face_circulator",
    "TinyMesh.c10_vertex_elements",
    "TinyMesh.c10_order",
    "TinyMesh.c10_prev",
    "TinyMesh.c10_flags"
   ],
   "note": "vertex and face circulators with their order and the elements they report, prev, and the flag queries built on them"
  },
  {
   "property": "C100",
   "status": "proved",
   "theorems": [
    "TinyMesh.c100_construct",
    "TinyMesh.c100_edits",
    "TinyMesh.c100_report",
    "TinyMesh.c100_smooth",
    "TinyMesh.c100_fill",
    "TinyMesh.c100_remesh",
    "TinyMesh.c100_simplify",
    "TinyMesh.c100_queue"
   ],
   "note": "Over the real numbers. simplifyQEM needs an exact solver; the order of the candidates is a parameter that may not look at coordinates. Implicit fairing is in C56; L0 denoising, feature lines, the advancing front and the context based filling are not covered."
  },
  {
   "property": "C101",
   "status": "proved",
   "theorems": [
    "TinyMesh.c101_split",
    "TinyMesh.c101_flip",
    "TinyMesh.c101_collapse"
   ],
   "note": "multiset of triangles before and after; errors and rejections of collapse are C15, C18"
  },
  {
   "property": "C102",
   "status": "proved",
   "theorems": [
    "TinyMesh.c102_split",
    "TinyMesh.c102_split_loop",
    "TinyMesh.c102_flip_volume",
    "TinyMesh.c102_flip_flat",
    "TinyMesh.c102_collapse"
   ],
   "note": "over the extended reals for split (new vertex at the midpoint), for arbitrary positions otherwise"
  },
  {
   "property": "C103",
   "status": "proved",
   "theorems": [
    "TinyMesh.c103_edges",
    "TinyMesh.c103_boundary",
    "TinyMesh.c103_degree",
    "TinyMesh.c103_faces",
    "TinyMesh.c103_counts",
    "TinyMesh.c103_pieces",
    "TinyMesh.c103_manifold"
   ],
   "note": "Spec/Counts: edges, rim and chains of a triangle list; the taken triangles are keepTris of the final index list (C05, C06 relate it to the input)."
  },
  {
   "property": "C104",
   "status": "proved",
   "theorems": [
    "TinyMesh.c104_load",
    "TinyMesh.c104_save",
    "TinyMesh.c104_round_trip"
   ],
   "note": "Extension of a POSIX path as in std::filesystem (C++17); the parsers are not part of it."
  },
  {
   "property": "C105",
   "status": "proved",
   "theorems": [
    "TinyMesh.c105_stretch",
    "TinyMesh.c105_step",
    "TinyMesh.c105_moves"
   ],
   "note": "Energy estimate by summation over half-edges and their reverses; c105_moves is a case in which the sum decreases."
  },
  {
   "property": "C106",
   "status": "proved",
   "theorems": [
    "TinyMesh.c106_anchored",
    "TinyMesh.c106_free",
    "TinyMesh.c106_free_triangles"
   ],
   "note": "Geometric rate with constants that depend on the mesh and step size."
  },
  {
   "property": "C107",
   "status": "proved",
   "theorems": [
    "TinyMesh.c107_taubin",
    "TinyMesh.c107_equal",
    "TinyMesh.c107_default",
    "TinyMesh.c107_tetrahedron"
   ],
   "note": "The operator is self-adjoint and between 0 and 2 for the form of squared edge lengths, also with pinned vertices."
  },
  {
   "property": "C108",
   "status": "proved",
   "theorems": [
    "TinyMesh.c108_safe",
    "TinyMesh.c108_built",
    "TinyMesh.c108_exact",
    "TinyMesh.c108_close",
    "TinyMesh.c108_flip_needed"
   ],
   "note": "safety for any arithmetic; success in exact arithmetic; c108_flip_needed shows that the condition on flips (see C14) cannot be dropped"
  },
  {
   "property": "C109",
   "status": "proved",
   "theorems": [
    "TinyMesh.c109_fairing",
    "TinyMesh.c109_l0",
    "TinyMesh.c109_l0_ends",
    "TinyMesh.c109_normals",
    "TinyMesh.c109_hole",
    "TinyMesh.c109_safe"
   ],
   "note": "Any arithmetic and any solver. The printed warnings are left out. For L0 denoising the order in which the hash set is traversed is any permutation."
  },
  {
   "property": "C11",
   "status": "proved",
   "theorems": [
    "TinyMesh.c11_counts"
   ],
   "note": ""
  },
  {
   "property": "C110",
   "status": "proved",
   "theorems": [
    "TinyMesh.c110_loop",
    "TinyMesh.c110_loop_exact",
    "TinyMesh.c110_safe",
    "TinyMesh.c110_triangles",
    "TinyMesh.c110_exact",
    "TinyMesh.c110_few_faces",
    "TinyMesh.c110_enough_faces",
    "TinyMesh.c110_l0_ends",
    "TinyMesh.c110_front",
    "TinyMesh.c110_front_outcome",
    "TinyMesh.c110_front_three"
   ],
   "note": "The conversion of a number to int, solvers, orders and random numbers are parameters. Loading and saving are C94-C96 and not repeated here. Whether the loop with advancing fronts returns is part of C75."
  },
  {
   "property": "C111",
   "status": "proved",
   "theorems": [
    "TinyMesh.c111_safe",
    "TinyMesh.c111_index",
    "TinyMesh.c111_exact",
    "TinyMesh.c111_collapsed",
    "TinyMesh.c111_filled",
    "TinyMesh.c111_collect",
    "TinyMesh.c111_collect_exact",
    "TinyMesh.c111_default",
    "TinyMesh.c111_default_curvature"
   ],
   "note": "Any arithmetic for c111_safe, c111_index, c111_collapsed, c111_filled, c111_collect, c111_default; exact arithmetic for c111_exact, c111_collect_exact, c111_default_curvature. An unset pointer is null."
  },
  {
   "property": "C112",
   "status": "proved",
   "theorems": [
    "TinyMesh.c112_load",
    "TinyMesh.c112_empty",
    "TinyMesh.c112_triangle",
    "TinyMesh.c112_works",
    "TinyMesh.c112_works_exact",
    "TinyMesh.c112_normals",
    "TinyMesh.c112_filled",
    "TinyMesh.c112_simplify",
    "TinyMesh.c112_laplacian",
    "TinyMesh.c112_signatures",
    "TinyMesh.c112_curvatures",
    "TinyMesh.c112_closest",
    "TinyMesh.c112_blind"
   ],
   "note": "The tests are modelled from the point where the mesh has been loaded. The test of feature lines is not included (see C67 and C68). Over the reals with infinities and NaN, except c112_load, c112_empty, c112_triangle, c112_works and c112_normals, which hold for every arithmetic."
  },
  {
   "property": "C113",
   "status": "proved",
   "theorems": [
    "TinyMesh.c113_sizes",
    "TinyMesh.c113_normal"
   ],
   "note": "over the reals, errors included"
  },
  {
   "property": "C114",
   "status": "proved",
   "theorems": [
    "TinyMesh.c114_construct",
    "TinyMesh.c114_edits",
    "TinyMesh.c114_report",
    "TinyMesh.c114_smooth",
    "TinyMesh.c114_fill",
    "TinyMesh.c114_remesh"
   ],
   "note": "over the reals, errors included"
  },
  {
   "property": "C115",
   "status": "partial",
   "theorems": [
    "TinyMesh.c115_cot_partial",
    "TinyMesh.c115_cot_false",
    "TinyMesh.c115_belkin_false",
    "TinyMesh.c115_simplify_false"
   ],
   "note": "the statement is false of the code; the counterexamples are proved. The cotangent Laplacian is the same in two units if all triangles are large enough in both."
  },
  {
   "property": "C116",
   "status": "proved",
   "theorems": [
    "TinyMesh.c116_flip",
    "TinyMesh.c116_split"
   ],
   "note": "Both directions of the condition for the flip are proved. The theorem on split and collapse says nothing on whether the collapse is accepted; for that see C65."
  },
  {
   "property": "C117",
   "status": "proved",
   "theorems": [
    "TinyMesh.c117_format",
    "TinyMesh.c117_stream",
    "TinyMesh.c117_session",
    "TinyMesh.c117_message",
    "TinyMesh.c117_no_text",
    "TinyMesh.c117_pieces",
    "TinyMesh.c117_assertion"
   ],
   "note": "Characters stand for bytes; what snprintf's conversions yield is a parameter. Evaluation order of << is that of C++17."
  },
  {
   "property": "C118",
   "status": "proved",
   "theorems": [
    "TinyMesh.c118_rounds",
    "TinyMesh.c118_whole",
    "TinyMesh.c118_locked",
    "TinyMesh.c118_idle"
   ],
   "note": "Law-free: nothing is assumed of the arithmetic or the libraries except that the order of a set is a permutation and that the heat kernel signatures do not change the mesh. The absence of double edges after the first stage is a hypothesis of c118_whole, since the first stage can make one (see C89). Locked vertices may be removed by the repair (C87). Examples: an iteration on three tetrahedra in which a free vertex moves, and the whole function on a tetrahedron without one face, in a fixed point arithmetic."
  },
  {
   "property": "C119",
   "status": "proved",
   "theorems": [
    "TinyMesh.c119_const",
    "TinyMesh.c119_between",
    "TinyMesh.c119_order"
   ],
   "note": "53 functions, listed by the type Query. BVH, the distances of metrics.cpp and the signatures of a matrix are modelled as functions of the mesh that have no new mesh as result and are not listed. The statement is about calls that return; what stops a call is the subject of the claims about the single functions."
  },
  {
   "property": "C12",
   "status": "proved",
   "theorems": [
    "TinyMesh.c12_split",
    "TinyMesh.c12_split_iff"
   ],
   "note": ""
  },
  {
   "property": "C120",
   "status": "proved",
   "theorems": [
    "TinyMesh.c120_rim",
    "TinyMesh.c120_ready",
    "TinyMesh.c120_complete",
    "TinyMesh.c120_chords",
    "TinyMesh.c120_programs",
    "TinyMesh.c120_exact"
   ],
   "note": "Holed and Chordless in terms of the triangle list, the whole completion and the example programs for built meshes"
  },
  {
   "property": "C13",
   "status": "proved",
   "theorems": [
    "TinyMesh.c13_flip",
    "TinyMesh.c13_flip_iff"
   ],
   "note": ""
  },
  {
   "property": "C14",
   "status": "partial",
   "theorems": [
    "TinyMesh.c14_counterexample",
    "TinyMesh.c14_flip_any_partial"
   ],
   "note": "false as stated: c14_counterexample flips a boundary edge; the partial theorem says exactly when the result is consistent"
  },
  {
   "property": "C15",
   "status": "proved",
   "theorems": [
    "TinyMesh.c15_collapse",
    "TinyMesh.c15_collapse_keeps"
   ],
   "note": "positions must not be NaN (see c18_nan_abort)"
  },
  {
   "property": "C16",
   "status": "partial",
   "theorems": [
    "TinyMesh.c16_rejected_partial",
    "TinyMesh.c16_counterexample"
   ],
   "note": "true for splitHE, flipHE, collapseHE; false for collapseFace (c16_counterexample)"
  },
  {
   "property": "C17",
   "status": "proved",
   "theorems": [
    "TinyMesh.c17_indices"
   ],
   "note": ""
  },
  {
   "property": "C18",
   "status": "proved",
   "theorems": [
    "TinyMesh.c18_no_failure",
    "TinyMesh.c18_nan_abort"
   ],
   "note": "positions in a range without NaN that is closed under midpoints"
  },
  {
   "property": "C19",
   "status": "proved",
   "theorems": [
    "TinyMesh.c19_euler"
   ],
   "note": ""
  },
  {
   "property": "C20",
   "status": "proved",
   "theorems": [
    "TinyMesh.c20_verify",
    "TinyMesh.c20_verify_exact"
   ],
   "note": ""
  },
  {
   "property": "C21",
   "status": "proved",
   "theorems": [
    "TinyMesh.c21_fill",
    "TinyMesh.c21_fill_exact",
    "TinyMesh.c21_face",
    "TinyMesh.c21_face_exact",
    "TinyMesh.c21_again"
   ],
   "note": "For every floating point semantics fillHoles either succeeds with the stated result or has undefined behaviour because an entry of the table stays unfilled; in exact arithmetic with finite positions it succeeds. c21_face is the statement for one face and any bound; c21_again says that a second call does nothing."
  },
  {
   "property": "C22",
   "status": "partial",
   "theorems": [
    "TinyMesh.c22_flags_partial",
    "TinyMesh.c22_stale",
    "TinyMesh.c22_counterexample"
   ],
   "note": "The property is false: the flag of the half-edges opposite to a hole is never cleared. c22_flags_partial says exactly which vertices are still reported, c22_stale that every vertex next to a hole is one of them, c22_counterexample is a concrete mesh."
  },
  {
   "property": "C23",
   "status": "proved",
   "theorems": [
    "TinyMesh.c23_remesh",
    "TinyMesh.c23_reject",
    "TinyMesh.c23_exact"
   ],
   "note": "Any scalar semantics, any visiting orders, thresholds and round counts: consistent result with unchanged Euler characteristic, or a failed assertion / exception; never undefined behaviour or divergence. In exact arithmetic it always succeeds (c23_exact)."
  },
  {
   "property": "C24",
   "status": "proved",
   "theorems": [
    "TinyMesh.c24_locked",
    "TinyMesh.c24_feature",
    "TinyMesh.c24_feature_iff"
   ],
   "note": "Locked vertices, and those locked by the feature test, survive in place. c24_feature_iff characterises the feature test in exact arithmetic."
  },
  {
   "property": "C25",
   "status": "proved",
   "theorems": [
    "TinyMesh.c25_faces"
   ],
   "note": "For every floating point semantics, solver result and queue order."
  },
  {
   "property": "C26",
   "status": "proved",
   "theorems": [
    "TinyMesh.c26_terminates",
    "TinyMesh.c26_exact",
    "TinyMesh.c26_zero",
    "TinyMesh.c26_overflow"
   ],
   "note": "Never ub or divergence, for every floating point semantics, solver result and queue order, provided that faces - target fits into int; c26_overflow: otherwise undefined behaviour (negative targets are not rejected). c26_exact: in exact arithmetic there is no failure at all."
  },
  {
   "property": "C27",
   "status": "proved",
   "theorems": [
    "TinyMesh.c27_laplacian",
    "TinyMesh.c27_taubin",
    "TinyMesh.c27_taubin_overflow"
   ],
   "note": "For every scalar semantics; on a consistent mesh the outcome is the zero-division exception or a mesh that differs only in positions of vertices that are neither boundary nor locked. smoothTaubin needs 2*iterations to fit into int (c27_taubin_overflow shows the undefined behaviour otherwise)."
  },
  {
   "property": "C28",
   "status": "proved",
   "theorems": [
    "TinyMesh.c28_laplacian_loops",
    "TinyMesh.c28_taubin_loops",
    "TinyMesh.c28_denoise_loops",
    "TinyMesh.c28_laplacian",
    "TinyMesh.c28_taubin",
    "TinyMesh.c28_denoise"
   ],
   "note": "Every interleaving of single loads and stores of doubles; no data races; bounded; same outcome as the sequential loops. Covers smoothLaplacian, smoothTaubin and both normal denoising filters. Links, indices, flags and locks are not stored to by any parallel loop and are read from the mesh at loop start."
  },
  {
   "property": "C29",
   "status": "proved",
   "theorems": [
    "TinyMesh.c29_laplacian_formula",
    "TinyMesh.c29_taubin_formula",
    "TinyMesh.c29_convex",
    "TinyMesh.c29_box",
    "TinyMesh.c29_affine",
    "TinyMesh.c29_taubin_affine",
    "TinyMesh.c29_step_needed"
   ],
   "note": "Exact arithmetic (extended reals with finite inputs). Functional formula of both filters, convex sets (hence the bounding box), affine equivariance (hence translations); c29_step_needed shows that the bound on the step size is needed."
  },
  {
   "property": "C30",
   "status": "proved",
   "theorems": [
    "TinyMesh.c30_adjacent",
    "TinyMesh.c30_cotangent",
    "TinyMesh.c30_belkin",
    "TinyMesh.c30_other"
   ],
   "note": "Exact arithmetic (extended reals, finite positions). For all three matrices: real entries, rows sum to zero, symmetric, quadratic form equals the weighted energy. Adjacency: degree on the diagonal, -1 for neighbours. Belkin needs one edge of positive length (otherwise the code divides 0 by 0)."
  },
  {
   "property": "C31",
   "status": "proved",
   "theorems": [
    "TinyMesh.c31_closest_in_triangle",
    "TinyMesh.c31_distance"
   ],
   "note": "All triangles (also degenerate) and queries; result over XR is finite, so no division by zero took part."
  },
  {
   "property": "C32",
   "status": "partial",
   "theorems": [
    "TinyMesh.c32_counterexample",
    "TinyMesh.c32_counterexample_corner",
    "TinyMesh.c32_nearest_partial"
   ],
   "note": "False of the code (bp is computed from p2): two counterexamples; nearest in four described regions."
  },
  {
   "property": "C33",
   "status": "proved",
   "theorems": [
    "TinyMesh.c33_query_any_tree",
    "TinyMesh.c33_query_built"
   ],
   "note": "For every tree with correct boxes, and for the tree built by construct with coordinates up to 1e19; relative to Triangle::distance as coded."
  },
  {
   "property": "C34",
   "status": "proved",
   "theorems": [
    "TinyMesh.c34_build",
    "TinyMesh.c34_reads"
   ],
   "note": "For every allowed behaviour of nth_element and partition; Boxed excludes empty halves."
  },
  {
   "property": "C35",
   "status": "proved",
   "theorems": [
    "TinyMesh.c35_merge",
    "TinyMesh.c35_merge_point",
    "TinyMesh.c35_merge_laws",
    "TinyMesh.c35_default",
    "TinyMesh.c35_inside",
    "TinyMesh.c35_distance",
    "TinyMesh.c35_max_extent",
    "TinyMesh.c35_area"
   ],
   "note": "Boxes that contain a point; the default (inverted) box is treated in c35_default."
  },
  {
   "property": "C36",
   "status": "partial",
   "theorems": [
    "TinyMesh.c36_symmetric_partial",
    "TinyMesh.c36_counterexample"
   ],
   "note": "Symmetric, non-negative, bounds the vertex distances; false: not zero on identical meshes."
  },
  {
   "property": "C37",
   "status": "partial",
   "theorems": [
    "TinyMesh.c37_principal_partial",
    "TinyMesh.c37_umbilic"
   ],
   "note": "Values for every symmetric tensor and orthonormal frame; directions when the values differ by at least 1e-6. False at umbilic points, where the directions are zero vectors."
  },
  {
   "property": "C38",
   "status": "partial",
   "theorems": [
    "TinyMesh.c38_directions_partial",
    "TinyMesh.c38_counterexample"
   ],
   "note": "False for every tensor with eigenvalue gap of at least 1e-6: each direction is an eigenvector for the other value."
  },
  {
   "property": "C39",
   "status": "partial",
   "theorems": [
    "TinyMesh.c39_rotation_partial",
    "TinyMesh.c39_close",
    "TinyMesh.c39_parallel",
    "TinyMesh.c39_counterexample"
   ],
   "note": "Proved for angles of at least 1e-12; opposite vectors throw; below 1e-12 the identity is returned (error below 1e-12)."
  },
  {
   "property": "C40",
   "status": "proved",
   "theorems": [
    "TinyMesh.c40_corners",
    "TinyMesh.c40_face",
    "TinyMesh.c40_not_corner"
   ],
   "note": "Exact arithmetic; for points and for the corners of every triangle of a consistent mesh; other vertices abort."
  },
  {
   "property": "C41",
   "status": "proved",
   "theorems": [
    "TinyMesh.c41_dihedral"
   ],
   "note": "Exact arithmetic, all four points."
  },
  {
   "property": "C42",
   "status": "partial",
   "theorems": [
    "TinyMesh.c42_weight_partial",
    "TinyMesh.c42_counterexample"
   ],
   "note": "Non-negative, zero from 4 sigma, non-increasing on each of the two branches; the weight jumps up at 2 sigma for every sigma."
  },
  {
   "property": "C43",
   "status": "partial",
   "theorems": [
    "TinyMesh.c43_fairing_counterexample",
    "TinyMesh.c43_denoise_counterexample",
    "TinyMesh.c43_l0_counterexample",
    "TinyMesh.c43_denoise_partial",
    "TinyMesh.c43_fairing_partial",
    "TinyMesh.c43_l0_partial",
    "TinyMesh.c27_laplacian",
    "TinyMesh.c27_taubin"
   ],
   "note": "False for implicitFairing, both normal based denoising filters and denoiseL0Smooth (counterexamples). True for smoothLaplacian and smoothTaubin (C27). When the other filters return they changed positions only."
  },
  {
   "property": "C44",
   "status": "partial",
   "theorems": [
    "TinyMesh.c44_progress_partial",
    "TinyMesh.c44_counterexample",
    "TinyMesh.c44_instant"
   ],
   "note": "Accepted for a clock in range unless an odd target of at most 39 is overshot (throws) or a step falls in the first millisecond (undefined conversion)."
  },
  {
   "property": "C45",
   "status": "partial",
   "theorems": [
    "TinyMesh.c45_save_load_partial"
   ],
   "note": "File formats are abstracted to the parsed numbers (the text of OBJ files is C94, the numbers of PLY files are C96); meshes with isolated triangles are excluded."
  },
  {
   "property": "C46",
   "status": "partial",
   "theorems": [
    "TinyMesh.c46_counterexample",
    "TinyMesh.c46_clone_exact",
    "TinyMesh.c46_boundary_partial",
    "TinyMesh.c46_closed_partial"
   ],
   "note": "False as stated: c46_counterexample contracts an edge joining two boundary vertices. c46_clone_exact says exactly which meshes can be cloned (at most one hole at each vertex); c46_boundary_partial covers all sequences of edits that contract no edge between two boundary vertices; c46_closed_partial covers all sequences of edits of closed meshes."
  },
  {
   "property": "C47",
   "status": "partial",
   "theorems": [
    "TinyMesh.c47_vector_laws_partial",
    "TinyMesh.c47_division_reported",
    "TinyMesh.c47_normalize",
    "TinyMesh.c47_division_vector",
    "TinyMesh.c47_counterexample"
   ],
   "note": "All operators except subtraction of a scalar, which multiplies (counterexample)."
  },
  {
   "property": "C48",
   "status": "partial",
   "theorems": [
    "TinyMesh.c48_signature_partial",
    "TinyMesh.c48_errors",
    "TinyMesh.c48_counterexample"
   ],
   "note": "At least two eigenvalues and any number of times but one; a single time gives NaN; fewer than two eigenvalues read out of range."
  },
  {
   "property": "C49",
   "status": "partial",
   "theorems": [
    "TinyMesh.c49_post_increment_partial",
    "TinyMesh.c49_counterexample"
   ],
   "note": "Advance and equality proved; the iteration from the returned iterator goes round the whole ring at every position but the first."
  },
  {
   "property": "C50",
   "status": "partial",
   "theorems": [
    "TinyMesh.c50_constructor",
    "TinyMesh.c50_components_partial",
    "TinyMesh.c50_counterexample"
   ],
   "note": "False for Vec2: the constructor writes elems[2] (c50_counterexample). In bounds exactly for three or more dimensions (c50_constructor), with the arguments as components (c50_components_partial)."
  },
  {
   "property": "C51",
   "status": "partial",
   "theorems": [
    "TinyMesh.c51_edge_length",
    "TinyMesh.c51_dihedral",
    "TinyMesh.c51_choice",
    "TinyMesh.c51_face_area_partial",
    "TinyMesh.c51_area_counterexample"
   ],
   "note": "Edge length and dihedral angle in full. Face area: proved when all faces are triangles; false for faces with more corners (c51_area_counterexample: Face::area adds ears, so the value depends on the first corner), and hole polygons of open meshes count as faces."
  },
  {
   "property": "C52",
   "status": "proved",
   "theorems": [
    "TinyMesh.c52_boundary"
   ],
   "note": ""
  },
  {
   "property": "C53",
   "status": "proved",
   "theorems": [
    "TinyMesh.c53_candidates"
   ],
   "note": "Faces around both ends count twice, as in the code; the normals are scaled by |N|/(|N|+1e-12) as in the code."
  },
  {
   "property": "C54",
   "status": "partial",
   "theorems": [
    "TinyMesh.c54_locked_partial",
    "TinyMesh.c54_counterexample",
    "TinyMesh.c52_boundary"
   ],
   "note": "False of the code: c54_counterexample is a run that removes locked vertices. What holds instead is c52_boundary: the vertices at the boundary, locked or not, stay in place (c54_locked_partial); missing is any protection of locked vertices in the interior."
  },
  {
   "property": "C55",
   "status": "partial",
   "theorems": [
    "TinyMesh.c55_simple_partial",
    "TinyMesh.c55_counterexample"
   ],
   "note": "False in general (c55_counterexample, a square of two triangles filled along its own diagonal). c55_simple_partial proves it if no diagonal of a hole is an edge or belongs to two holes."
  },
  {
   "property": "C56",
   "status": "proved",
   "theorems": [
    "TinyMesh.c56_step",
    "TinyMesh.c56_unique",
    "TinyMesh.c56_halfspace",
    "TinyMesh.c56_isometry"
   ],
   "note": "BiCGSTAB is a parameter that is assumed to solve regular systems exactly; weights must stay nonnegative"
  },
  {
   "property": "C57",
   "status": "proved",
   "theorems": [
    "TinyMesh.c57_gaussian",
    "TinyMesh.c57_bilateral",
    "TinyMesh.c57_bound",
    "TinyMesh.c57_flat",
    "TinyMesh.c57_similar",
    "TinyMesh.c57_abort"
   ],
   "note": "Positions as extended reals (finite exact values, infinities, NaN). Hypotheses: finite positions, triangles with positive area after each smoothing. The similarity part is stated for the Gaussian filter; the scale for normals of the bilateral filter does not depend on the size either (denoise_scale covers both)."
  },
  {
   "property": "C58",
   "status": "proved",
   "theorems": [
    "TinyMesh.c58_operator",
    "TinyMesh.c58_result",
    "TinyMesh.c58_rounds",
    "TinyMesh.c58_rounds_default",
    "TinyMesh.c58_diverges",
    "TinyMesh.c58_skip",
    "TinyMesh.c58_plane",
    "TinyMesh.c58_isometry"
   ],
   "note": "In exact arithmetic with an exact solver; c58_diverges and c58_skip for every solver. c58_rounds gives the number of rounds for each positive beta."
  },
  {
   "property": "C59",
   "status": "proved",
   "theorems": [
    "TinyMesh.c59_normal",
    "TinyMesh.c59_sphere",
    "TinyMesh.c59_plane"
   ],
   "note": "formula, exceptions, exactness on spheres and planes"
  },
  {
   "property": "C60",
   "status": "proved",
   "theorems": [
    "TinyMesh.c60_defect",
    "TinyMesh.c60_gauss_bonnet"
   ],
   "note": "formula, Gauss-Bonnet, total area"
  },
  {
   "property": "C61",
   "status": "partial",
   "theorems": [
    "TinyMesh.c61_formula",
    "TinyMesh.c61_plane",
    "TinyMesh.c61_sphere_partial",
    "TinyMesh.c61_mean_counterexample"
   ],
   "note": "formula and planes proved; on spheres the result is 2/r, twice the mean curvature, so the claim is false there"
  },
  {
   "property": "C62",
   "status": "proved",
   "theorems": [
    "TinyMesh.c62_face",
    "TinyMesh.c62_exact",
    "TinyMesh.c62_derivative"
   ],
   "note": "frame orthonormal, tensor and derivative tensor unique least-squares fits, exact for symmetric linear normal fields"
  },
  {
   "property": "C63",
   "status": "partial",
   "theorems": [
    "TinyMesh.c63_tensor",
    "TinyMesh.c63_sphere_partial",
    "TinyMesh.c63_counterexample"
   ],
   "note": "tensors are the stated weighted means; on inscribed meshes kMax = 1/r exactly, but kMin = (1/r)(1 - (l/2r)^2) < 1/r at every vertex (counterexample), because the first axis is not projected to the tangent plane"
  },
  {
   "property": "C64",
   "status": "proved",
   "theorems": [
    "TinyMesh.c64_holes"
   ],
   "note": "no curvature function returns normally on a mesh with a non-triangular face"
  },
  {
   "property": "C65",
   "status": "partial",
   "theorems": [
    "TinyMesh.c65_accept",
    "TinyMesh.c65_complete",
    "TinyMesh.c65_noflip_partial",
    "TinyMesh.c65_counterexample"
   ],
   "note": "Acceptance is characterised exactly, and no edge is refused when no face is turned. That no accepted collapse turns a face holds if the first half-edge of the removed vertex is a side of one of the two faces of the edge and no face becomes perpendicular to the vector area; without this it is false (c65_counterexample): the remembered sign is reset to zero at the two faces of the edge and the last face is not compared with the first."
  },
  {
   "property": "C66",
   "status": "proved",
   "theorems": [
    "TinyMesh.c66_collapse_face",
    "TinyMesh.c66_counts"
   ],
   "note": ""
  },
  {
   "property": "C67",
   "status": "proved",
   "theorems": [
    "TinyMesh.c67_edge",
    "TinyMesh.c67_marks",
    "TinyMesh.c67_field",
    "TinyMesh.c67_half"
   ],
   "note": "in exact arithmetic, from given finite curvature data; solver assumed exact for regular symmetric systems"
  },
  {
   "property": "C68",
   "status": "partial",
   "theorems": [
    "TinyMesh.c68_unit_partial",
    "TinyMesh.c68_no_lines",
    "TinyMesh.c68_counterexample"
   ],
   "note": "false for meshes without lines: counterexample; unit length proved if the harmonic field does not vanish and contributions do not cancel"
  },
  {
   "property": "C69",
   "status": "proved",
   "theorems": [
    "TinyMesh.c69_rounds",
    "TinyMesh.c69_curvatures"
   ],
   "note": "real and NaN arithmetic (XR); gauss with exact exp"
  },
  {
   "property": "C70",
   "status": "partial",
   "theorems": [
    "TinyMesh.c70_radius_partial",
    "TinyMesh.c70_mesh_partial",
    "TinyMesh.c70_counterexample"
   ],
   "note": "false: with equal curvatures (every mesh inscribed in a sphere, with exact solver) NaN is converted to int, undefined behaviour; the formula holds for non-negative curvatures that are not all equal"
  },
  {
   "property": "C71",
   "status": "proved",
   "theorems": [
    "TinyMesh.c71_motion",
    "TinyMesh.c71_none"
   ],
   "note": "the decomposition is a parameter assumed exact, an exact one exists; without a target within 1e20 the index -1 is read, undefined behaviour"
  },
  {
   "property": "C72",
   "status": "partial",
   "theorems": [
    "TinyMesh.c72_error_partial",
    "TinyMesh.c72_choice_partial",
    "TinyMesh.c72_counterexample"
   ],
   "note": "false: the returned value is too large by the square of the length of the translation; the candidate chosen is the one of smallest returned value"
  },
  {
   "property": "C73",
   "status": "partial",
   "theorems": [
    "TinyMesh.c73_descriptor_partial",
    "TinyMesh.c73_whole_partial",
    "TinyMesh.c73_counterexample"
   ],
   "note": "false: the sums are divided by the number of all vertices; the second half is the root of E[f^2] - (P/N) E[f]^2"
  },
  {
   "property": "C74",
   "status": "partial",
   "theorems": [
    "TinyMesh.c74_candidates_partial",
    "TinyMesh.c74_counterexample"
   ],
   "note": "false with fewer than ten source vertices: read past the end; holds otherwise"
  },
  {
   "property": "C75",
   "status": "partial",
   "theorems": [
    "TinyMesh.c75_filled_partial",
    "TinyMesh.c75_outcome",
    "TinyMesh.c75_triangle",
    "TinyMesh.c75_throws",
    "TinyMesh.c75_fold_throws"
   ],
   "note": "the hole is closed whenever the front returns, for every arithmetic; outcomes with finite positions; that it always returns is false: it throws in the first round where faces behind the hole are folded on each other (c75_throws, counterexample c75_fold_throws); missing: whether runs that do not throw end"
  },
  {
   "property": "C76",
   "status": "proved",
   "theorems": [
    "TinyMesh.c76_run",
    "TinyMesh.c76_round"
   ],
   "note": "exact arithmetic; the round either merges, fills the smallest angle, or throws for a listed degenerate position"
  },
  {
   "property": "C77",
   "status": "partial",
   "theorems": [
    "TinyMesh.c77_still_partial",
    "TinyMesh.c77_moves_and_marks"
   ],
   "note": "false: a locked corner of the hole moves and half-edges inside stay marked"
  },
  {
   "property": "C78",
   "status": "partial",
   "theorems": [
    "TinyMesh.c78_distance",
    "TinyMesh.c78_bisector_partial",
    "TinyMesh.c78_not_bisector",
    "TinyMesh.c78_wrong_side"
   ],
   "note": "false for unequal sides and for reflex angles"
  },
  {
   "property": "C79",
   "status": "proved",
   "theorems": [
    "TinyMesh.c79_inside",
    "TinyMesh.c79_filled",
    "TinyMesh.c79_outcome",
    "TinyMesh.c79_triangle"
   ],
   "note": "moved vertices exact; closed hole for every arithmetic, solver and order; outcomes with finite positions"
  },
  {
   "property": "C80",
   "status": "partial",
   "theorems": [
    "TinyMesh.c80_normals_partial",
    "TinyMesh.c80_rim_ignored"
   ],
   "note": "rounds and exceptions exact; false of the rim: its normals have no influence"
  },
  {
   "property": "C81",
   "status": "partial",
   "theorems": [
    "TinyMesh.c81_turn_partial",
    "TinyMesh.c81_only_if"
   ],
   "note": "the matrix is exact; false: it is no rotation unless the normals are equal or perpendicular"
  },
  {
   "property": "C82",
   "status": "partial",
   "theorems": [
    "TinyMesh.c82_positions_partial",
    "TinyMesh.c82_flat",
    "TinyMesh.c82_wrong_sign",
    "TinyMesh.c82_not_flat",
    "TinyMesh.c82_quarter"
   ],
   "note": "equation and uniqueness, flat regions stay; false without rotations and for slopes"
  },
  {
   "property": "C83",
   "status": "proved",
   "theorems": [
    "TinyMesh.c83_faces",
    "TinyMesh.c83_verts",
    "TinyMesh.c83_sides",
    "TinyMesh.c83_star"
   ],
   "note": "for every arithmetic"
  },
  {
   "property": "C84",
   "status": "proved",
   "theorems": [
    "TinyMesh.c84_dissim",
    "TinyMesh.c84_none",
    "TinyMesh.c84_tree"
   ],
   "note": "in exact arithmetic; undefined behaviour if no vertex is near"
  },
  {
   "property": "C85",
   "status": "proved",
   "theorems": [
    "TinyMesh.c85_positions"
   ],
   "note": "in exact arithmetic, with exact solver"
  },
  {
   "property": "C86",
   "status": "partial",
   "theorems": [
    "TinyMesh.c86_split",
    "TinyMesh.c86_collapse",
    "TinyMesh.c86_no_long_partial",
    "TinyMesh.c86_long_counterexample",
    "TinyMesh.c86_flip",
    "TinyMesh.c86_flips",
    "TinyMesh.c86_limits"
   ],
   "note": "Splits, collapses and flips are characterised exactly. The promise of the collapse loop to make no long edge is false (c86_long_counterexample); it holds if the first end of the edge stays (c86_no_long_partial)."
  },
  {
   "property": "C87",
   "status": "partial",
   "theorems": [
    "TinyMesh.c87_split",
    "TinyMesh.c87_flip_step",
    "TinyMesh.c87_flip",
    "TinyMesh.c87_thin_step",
    "TinyMesh.c87_thin",
    "TinyMesh.c87_small_step",
    "TinyMesh.c87_repair_partial",
    "TinyMesh.c87_ub_counterexample",
    "TinyMesh.c87_locked_counterexample"
   ],
   "note": "False as stated: the loop over faces can be undefined and locked vertices can be removed (both shown by counterexamples). Each loop is proved to end with what it is to achieve; the whole repair is proved to end, either with a consistent mesh or with undefined behaviour for which the reason is given."
  },
  {
   "property": "C88",
   "status": "proved",
   "theorems": [
    "TinyMesh.c88_update",
    "TinyMesh.c88_nan"
   ],
   "note": "The update of the table of signatures after the repair (completion.cpp:615-632). Old entries are kept, new vertices get the mean over the neighbours that have an entry at that moment, the range is kept; c88_nan: without such a neighbour the entry consists of NaNs."
  },
  {
   "property": "C89",
   "status": "proved",
   "theorems": [
    "TinyMesh.c89_closed",
    "TinyMesh.c89_outcome",
    "TinyMesh.c89_three"
   ],
   "note": "The mean values are stated for finite positions. The result may contain two edges with the same ends; see section 5 of DESIGN.md."
  },
  {
   "property": "C90",
   "status": "partial",
   "theorems": [
    "TinyMesh.c90_allowed",
    "TinyMesh.c90_step",
    "TinyMesh.c90_skip",
    "TinyMesh.c90_place_partial",
    "TinyMesh.c90_flip",
    "TinyMesh.c90_flips",
    "TinyMesh.c90_lost_counterexample",
    "TinyMesh.c90_flipped_counterexample"
   ],
   "note": "The statement is false for the code in two points (c90_flipped_counterexample, c90_lost_counterexample). Proved: the exact conditions of the tests, the step, the place if the start has no more neighbours than the end, and the flips."
  },
  {
   "property": "C91",
   "status": "partial",
   "theorems": [
    "TinyMesh.c91_smooth",
    "TinyMesh.c91_range",
    "TinyMesh.c91_derivatives_partial",
    "TinyMesh.c91_exchanged",
    "TinyMesh.c91_counterexample"
   ],
   "note": "Exact outcome of smoothing and of the derivatives; the form that is differentiated has the curvatures exchanged at every vertex that is not umbilic (c91_exchanged, witness c91_counterexample), a consequence of C38."
  },
  {
   "property": "C92",
   "status": "proved",
   "theorems": [
    "TinyMesh.c92_nodes",
    "TinyMesh.c92_order",
    "TinyMesh.c92_cheapest",
    "TinyMesh.c92_twin",
    "TinyMesh.c92_covered"
   ],
   "note": "In exact arithmetic; the priority queue and the solver are taken by their contracts. The costs are those at the begin of the trial: the code does not update them after a contraction."
  },
  {
   "property": "C93",
   "status": "partial",
   "theorems": [
    "TinyMesh.c93_root_partial",
    "TinyMesh.c93_range",
    "TinyMesh.c93_same_partial",
    "TinyMesh.c93_counterexample"
   ],
   "note": "False as stated for same: counterexample proved. Proved for root and merge, and what same computes."
  },
  {
   "property": "C94",
   "status": "partial",
   "theorems": [
    "TinyMesh.c94_text",
    "TinyMesh.c94_unique",
    "TinyMesh.c94_load_partial",
    "TinyMesh.c94_counterexample"
   ],
   "note": "False in general: default precision of std::ostream merges positions (c94_counterexample). Proved: the text is well-formed with the right content for every mesh (c94_text), has one content (c94_unique), and loads to the same surface if rounding keeps the positions apart (c94_load_partial)."
  },
  {
   "property": "C95",
   "status": "proved",
   "theorems": [
    "TinyMesh.c95_table",
    "TinyMesh.c95_pairs",
    "TinyMesh.c95_construct",
    "TinyMesh.c95_needed"
   ],
   "note": "The table is a model of std::unordered_map (chaining, arbitrary growth); std::hash<double> is a parameter that has to respect equality, c95_needed shows that this is needed."
  },
  {
   "property": "C96",
   "status": "partial",
   "theorems": [
    "TinyMesh.c96_load_partial",
    "TinyMesh.c96_types",
    "TinyMesh.c96_double",
    "TinyMesh.c96_wrap_counterexample",
    "TinyMesh.c96_save",
    "TinyMesh.c96_save_load_partial"
   ],
   "note": "False: types other than four bytes, missing properties and indices that wrap around (c96_types, c96_double, c96_wrap_counterexample). Proved: files with values of four bytes (c96_load_partial), files written by savePLY (c96_save, c96_save_load_partial). tinyply itself is not modelled."
  },
  {
   "property": "C97",
   "status": "proved",
   "theorems": [
    "TinyMesh.c97_edits",
    "TinyMesh.c97_remesh",
    "TinyMesh.c97_simplify",
    "TinyMesh.c97_fill"
   ],
   "note": "Pieces are classes of vertices under walks along half-edges; SamePieces is a bijection of pieces that respects the vertices in both meshes. Covers edit sequences, remeshTriangular, simplifyQEM, fillHoles."
  },
  {
   "property": "C98",
   "status": "proved",
   "theorems": [
    "TinyMesh.c98_remesh",
    "TinyMesh.c98_simplify",
    "TinyMesh.c98_edits",
    "TinyMesh.c98_edits_needed"
   ],
   "note": "KeepsHoles: same marked half-edges, same holes, same loops. For edit sequences a flipped edge must carry no mark; c98_edits_needed shows that this is needed."
  },
  {
   "property": "C99",
   "status": "proved",
   "theorems": [
    "TinyMesh.c99_sizes",
    "TinyMesh.c99_laplacian",
    "TinyMesh.c99_vertex",
    "TinyMesh.c99_curvature"
   ],
   "note": "Over the real numbers (quotients of numbers by zero totalised on both sides); motions that keep the orientation."
  }
 ]
}
