{"id": "C01", "title": "Successful construction yields a consistent half-edge mesh", "statement": "Whenever building a mesh from a vertex list and a triangle index list returns normally, the mesh is consistent: following rev twice from any half-edge returns to it and never stays on it, a half-edge's rev starts where the half-edge ends, next permutes the half-edges and stays on one face, every face and every vertex owns a half-edge of its own, all half-edges of one face lie on one next-loop, and index() of every element equals its position in the mesh.", "quantifier": "for every vertex list, every index list, every floating point semantics and every vector growth policy under which construction returns", "why_tests_cant": "the input space of triangle soups is infinite and the structural damage of a wrong link shows only on specific neighbourhoods; tests check a few files", "anchors": ["src/tinymesh/core/mesh.cpp:Mesh::construct", "src/tinymesh/core/halfedge.h:Halfedge", "src/tinymesh/core/face.h:Face", "src/tinymesh/core/vertex.h:Vertex"]}
{"id": "C02", "title": "Construction accepts every manifold triangle mesh", "statement": "Building a mesh from in-range indices whose triangles are non-degenerate after merging equal positions, use each directed edge at most once and form a single fan or a single closed ring around each vertex neither terminates with an error, nor loops forever, nor touches invalid memory, provided the half-edge vector does not have to reallocate while boundary half-edges are appended (always the case for closed meshes).", "quantifier": "for every such vertex and index list (closed or with boundary), every floating point semantics with a lawful equality, every growth policy", "why_tests_cant": "a test exercises a handful of meshes; completeness is a claim about all manifold inputs, including all boundary configurations", "anchors": ["src/tinymesh/core/mesh.cpp:Mesh::construct"]}
{"id": "C03", "title": "Non-manifold vertices are never accepted", "statement": "If building a mesh returns normally, then every vertex has exactly one fan: all half-edges leaving it are reached by turning around it from its own half-edge, so bow-tie vertices in the input never give a mesh: they lead to a reported error, unless one of the cases of undefined behaviour of C04 comes first.", "quantifier": "for every vertex and index list for which construction returns", "why_tests_cant": "the check counts faces around a vertex; only a proof shows that the count cannot agree by accident for some soup of triangles", "anchors": ["src/tinymesh/core/mesh.cpp:Mesh::construct (lines 343-364)"]}
{"id": "C04", "title": "Construction never runs into undefined behaviour on a valid triangle list", "statement": "Building a mesh from in-range indices with length divisible by three either succeeds or reports an error; it never dereferences an invalid pointer or reference.", "quantifier": "for every position list and index list with in-range indices in triples, every growth policy of the half-edge vector", "why_tests_cant": "a dangling reference into a reallocated vector, or a vertex left without half-edge, often appears to work in a test run; absence of such accesses is a statement about all inputs", "anchors": ["src/tinymesh/core/mesh.cpp:Mesh::construct (lines 288-346)"]}
{"id": "C05", "title": "Degenerate triangles are dropped", "statement": "Triangles with two equal corners (after merging equal positions) are removed before the mesh is built, whatever their number and order: they never make construction fail.", "quantifier": "for every index list", "why_tests_cant": "depends on how many degenerate triangles there are and where they sit in the list; a test tries one arrangement", "anchors": ["src/tinymesh/core/mesh.cpp:Mesh::construct (lines 185-208)"]}
{"id": "C06", "title": "Equal positions are merged, distinct ones kept, in first-use order", "statement": "After building from (vertices, indices) on a fresh mesh object, the recorded corner k has a position equal to vertices[indices[k]], no two mesh vertices have equal positions, every mesh vertex is referenced by some corner and vertices appear in the order of first use.", "quantifier": "for every vertex and index list with in-range indices and every position type with an equality that is an equivalence", "why_tests_cant": "requires all collision patterns of positions; tests cover a few", "anchors": ["src/tinymesh/core/mesh.cpp:Mesh::construct(vertices, indices) (lines 88-107)", "src/tinymesh/core/vec.h:Vec::operator=="]}
{"id": "C07", "title": "The mesh reports the triangles it was built from", "statement": "After a successful build, getVertexIndices lists exactly the accepted input triangles, in input order, each with its orientation preserved (up to rotation of the three corners).", "quantifier": "for every vertex and index list for which construction returns", "why_tests_cant": "a test compares a few meshes; loss of particular triangles (for example isolated ones) depends on the neighbourhood", "anchors": ["src/tinymesh/core/mesh.cpp:Mesh::getVertexIndices", "src/tinymesh/core/face.cpp:Face::isHole"]}
{"id": "C08", "title": "clone gives an equivalent mesh", "statement": "clone of a constructed mesh has the same set of vertex positions and, as oriented triangles over positions, the same list of faces as the original.", "quantifier": "for every mesh obtained by construction whose triangles are all reported", "why_tests_cant": "holds or fails depending on the interplay of vertex reordering and face rotation on arbitrary meshes", "anchors": ["src/tinymesh/core/mesh.cpp:Mesh::clone", "src/tinymesh/core/mesh.cpp:Mesh::getVertices", "src/tinymesh/core/mesh.cpp:Mesh::getVertexIndices"]}
{"id": "C09", "title": "Building into a used mesh object replaces its content", "statement": "Calling construct(vertices, indices), or load of a PLY file, on a mesh object that already holds a mesh gives the same result as calling it on a fresh object.", "quantifier": "for every previous content and every new input", "why_tests_cant": "history-dependent: leftovers of an arbitrary earlier mesh matter", "anchors": ["src/tinymesh/core/mesh.cpp:Mesh::construct(vertices, indices)", "src/tinymesh/core/mesh.cpp:Mesh::load", "src/tinymesh/core/mesh.cpp:Mesh::loadPLY"]}
{"id": "C10", "title": "Circulators visit every incident element exactly once", "statement": "On a consistent mesh the vertex circulators terminate and visit each half-edge leaving the vertex exactly once, in the order h, next of the reverse of h; the neighbours and faces they report are the ends and faces of these half-edges, so without doubled edges no neighbour is reported twice; degree() is the number of half-edges leaving the vertex. The face circulators terminate and visit each half-edge of the face exactly once in next order, reporting their start vertices, and prev() returns the half-edge whose next is the given one.", "quantifier": "for every consistent mesh, vertex, face and half-edge", "why_tests_cant": "termination and exactly-once traversal on every mesh of any size is not testable", "anchors": ["src/tinymesh/core/vertex.cpp:Vertex::degree", "src/tinymesh/core/vertex.cpp:Vertex::HalfedgeIterator", "src/tinymesh/core/face.cpp:Face::HalfedgeIterator", "src/tinymesh/core/halfedge.h:Halfedge::prev"]}
{"id": "C11", "title": "Edge counting and handshake", "statement": "On a consistent mesh numEdges is exactly half of numHalfedges and the sum of degree() over all vertices equals numHalfedges; the sum of numCorners() over all faces equals numHalfedges.", "quantifier": "for every consistent mesh", "why_tests_cant": "global counting identity over meshes of unbounded size", "anchors": ["src/tinymesh/core/mesh.cpp:Mesh::numEdges", "src/tinymesh/core/vertex.cpp:Vertex::degree", "src/tinymesh/core/face.cpp:Face::numCorners"]}
{"id": "C12", "title": "Edge split is a correct local refinement", "statement": "splitHE on a consistent mesh either returns false and changes nothing or returns true, adds exactly one vertex (unlocked, at the midpoint of the edge), six half-edges and two faces, keeps every old vertex with its position and lock, leaves the mesh consistent and keeps all faces on both sides triangles; the new vertex has degree four.", "quantifier": "for every consistent mesh and every half-edge of it", "why_tests_cant": "the twenty-odd pointer updates must be right in every neighbourhood including small and self-adjacent ones", "anchors": ["src/tinymesh/core/mesh.cpp:Mesh::splitHE"]}
{"id": "C13", "title": "Edge flip is a correct local change", "statement": "flipHE on an edge between two triangles of a consistent mesh either returns false and changes nothing or returns true and only replaces the edge by the other diagonal: counts, positions and locks are unchanged, degrees drop by one at the old ends and grow by one at the new ends, and the mesh stays consistent without duplicate edges.", "quantifier": "for every consistent mesh and every half-edge whose two faces are triangles", "why_tests_cant": "aliasing of the touched elements differs per neighbourhood", "anchors": ["src/tinymesh/core/mesh.cpp:Mesh::flipHE"]}
{"id": "C14", "title": "flipHE keeps the mesh consistent for every edge", "statement": "flipHE called with any half-edge of a consistent mesh, including edges on the boundary, leaves the mesh consistent.", "quantifier": "for every consistent mesh and every half-edge", "why_tests_cant": "the damage depends on the size of the hole next to the edge", "anchors": ["src/tinymesh/core/mesh.cpp:Mesh::flipHE"]}
{"id": "C15", "title": "Edge collapse is a correct local simplification", "statement": "collapseHE on a consistent mesh either returns false and changes nothing or returns true, removes exactly one end vertex, six half-edges and two faces, keeps every other vertex with its position and lock, keeps every face without the edge with its corners (the removed end replaced by the other), and leaves a consistent mesh without duplicate edges.", "quantifier": "for every consistent mesh without duplicate edges, every half-edge, every floating point semantics (positions that compare equal to themselves)", "why_tests_cant": "correctness of the link condition and pointer surgery for all neighbourhoods", "anchors": ["src/tinymesh/core/mesh.cpp:Mesh::collapseHE"]}
{"id": "C16", "title": "A rejected edit leaves the mesh untouched", "statement": "If splitHE, flipHE, collapseHE or collapseFace returns false, the mesh is exactly as before the call.", "quantifier": "for every consistent mesh and every argument", "why_tests_cant": "rejections happen at many program points; an early partial update is visible only for particular meshes", "anchors": ["src/tinymesh/core/mesh.cpp:Mesh::splitHE", "src/tinymesh/core/mesh.cpp:Mesh::flipHE", "src/tinymesh/core/mesh.cpp:Mesh::collapseHE", "src/tinymesh/core/mesh.cpp:Mesh::collapseFace"]}
{"id": "C17", "title": "Indices stay dense and stable addresses stay valid", "statement": "After any sequence of edits on a consistent mesh, for every i below the element count, the element returned for i reports index() == i, and an element that was not removed keeps its identity.", "quantifier": "for every consistent mesh and every finite sequence of split, flip and collapse calls", "why_tests_cant": "swap-with-last removal goes wrong only for particular positions in a long history", "anchors": ["src/tinymesh/core/mesh.cpp:Mesh::removeVertex", "src/tinymesh/core/mesh.cpp:Mesh::removeHalfedge", "src/tinymesh/core/mesh.cpp:Mesh::removeFace", "src/tinymesh/core/mesh.cpp:Mesh::addVertex"]}
{"id": "C18", "title": "No edit sequence reaches invalid memory", "statement": "Any sequence of splitHE, collapseHE and (interior) flipHE calls with live half-edges on a consistent mesh runs without dereferencing null or freed elements, without failing an internal assertion and without looping forever.", "quantifier": "for every consistent mesh and every finite sequence of calls", "why_tests_cant": "use-after-free and endless traversals depend on histories of unbounded length", "anchors": ["src/tinymesh/core/mesh.cpp:Mesh::splitHE", "src/tinymesh/core/mesh.cpp:Mesh::flipHE", "src/tinymesh/core/mesh.cpp:Mesh::collapseHE"]}
{"id": "C19", "title": "Local edits preserve the Euler characteristic", "statement": "numVertices - numEdges + numFaces is unchanged by every splitHE, collapseHE and (interior) flipHE call, hence by every sequence of them.", "quantifier": "for every consistent mesh and every finite sequence of calls", "why_tests_cant": "invariant over unbounded histories", "anchors": ["src/tinymesh/core/mesh.cpp:Mesh::splitHE", "src/tinymesh/core/mesh.cpp:Mesh::flipHE", "src/tinymesh/core/mesh.cpp:Mesh::collapseHE", "src/tinymesh/core/mesh.cpp:Mesh::numEdges"]}
{"id": "C20", "title": "verify accepts every mesh produced by edits", "statement": "verify() returns true on every mesh with finite positions obtained from a successful construction by any sequence of splitHE, collapseHE and (interior) flipHE calls.", "quantifier": "for every construction input and every finite sequence of calls", "why_tests_cant": "history of unbounded length", "anchors": ["src/tinymesh/core/mesh.cpp:Mesh::verify", "src/tinymesh/core/mesh.cpp:Mesh::verifyVertex"]}
{"id": "C21", "title": "fillHoles closes every hole", "statement": "After fillHoles on a consistent mesh every face is a triangle, no face is reported as a hole, the mesh is still consistent, no vertex was added, moved or removed, and a hole with n sides was replaced by n-2 triangles.", "quantifier": "for every consistent mesh whose faces are triangles or holes, every number and size of holes, every floating point semantics in which the table of the triangulation is filled", "why_tests_cant": "holes of any size and the dynamic program choosing any triangulation", "anchors": ["src/tinymesh/core/mesh.cpp:Mesh::fillHoles", "src/tinymesh/core/completion.cpp:Mesh::holeFillMinDihedral_", "src/tinymesh/core/completion.cpp:Mesh::addNewTriangle"]}
{"id": "C22", "title": "After fillHoles no vertex is on the boundary", "statement": "After fillHoles every vertex of the (now closed) mesh reports isBoundary() == false.", "quantifier": "for every consistent mesh with holes", "why_tests_cant": "stale flags remain only next to former holes", "anchors": ["src/tinymesh/core/completion.cpp:Mesh::holeFillMinDihedral_", "src/tinymesh/core/vertex.cpp:Vertex::isBoundary"]}
{"id": "C23", "title": "Remeshing keeps the mesh consistent for every random order", "statement": "remeshTriangular on a consistent mesh ends with a consistent mesh, whatever order the random shuffles produce, whatever the lengths and iteration count, and never touches freed elements.", "quantifier": "for every consistent mesh, every shuffle result, every parameter value and iteration count", "why_tests_cant": "the shuffles are seeded from the random device; a test sees one order", "anchors": ["src/tinymesh/remesh/remesh.cpp:remeshTriangular"]}
{"id": "C24", "title": "Remeshing never moves or removes locked vertices", "statement": "Every vertex that is locked when remeshTriangular is called is still in the mesh afterwards, still locked and at exactly the same position.", "quantifier": "for every consistent mesh, every shuffle result, every parameter value and iteration count", "why_tests_cant": "depends on all interleavings of split, collapse, flip and smoothing", "anchors": ["src/tinymesh/remesh/remesh.cpp:remeshTriangular", "src/tinymesh/core/face.cpp:Face::isLocked", "src/tinymesh/filters/smooth.cpp:smoothTaubin"]}
{"id": "C25", "title": "Simplification respects the face budget", "statement": "simplifyQEM with a positive target never leaves fewer than target-1 faces, never increases the face count, and its number of faces changes by exactly two per accepted collapse.", "quantifier": "for every consistent mesh, target, trial count and every order in which the priority queue yields candidates", "why_tests_cant": "depends on the whole history of accepted and rejected collapses", "anchors": ["src/tinymesh/remesh/simplify.cpp:simplifyQEM"]}
{"id": "C26", "title": "Simplification terminates and never touches freed half-edges", "statement": "simplifyQEM terminates for every trial limit although its trial counter is reset after progress, and never dereferences a half-edge removed by an earlier collapse of the same pass.", "quantifier": "for every consistent mesh and every order in which the priority queue yields candidates", "why_tests_cant": "stale queue entries are dereferenced only for particular orders", "anchors": ["src/tinymesh/remesh/simplify.cpp:simplifyQEM"]}
{"id": "C27", "title": "Laplacian and Taubin smoothing keep boundary and locked vertices fixed", "statement": "smoothLaplacian and smoothTaubin change nothing but positions, and leave the position of every boundary vertex and every locked vertex exactly unchanged.", "quantifier": "for every mesh, every step size and iteration count, every floating point semantics", "why_tests_cant": "must hold for every mesh and number of iterations", "anchors": ["src/tinymesh/filters/smooth.cpp:smoothLaplacian", "src/tinymesh/filters/smooth.cpp:smoothTaubin"]}
{"id": "C28", "title": "Parallel smoothing does not depend on the schedule", "statement": "The result of every smoothing sweep is the same for every assignment of loop iterations to threads and every interleaving of their memory accesses.", "quantifier": "for every mesh and every interleaving of the loop iterations", "why_tests_cant": "thread schedules cannot be enumerated by tests", "anchors": ["src/tinymesh/filters/smooth.cpp:smoothLaplacian", "src/tinymesh/filters/smooth.cpp:smoothTaubin", "src/tinymesh/core/openmp.h:omp_parallel_for"]}
{"id": "C29", "title": "Uniform Laplacian smoothing never leaves the bounding box and commutes with translation", "statement": "smoothLaplacian with uniform weights and a step size in [0,1] keeps every vertex inside the axis-aligned bounding box of the input (maximum principle), for any number of iterations, and smoothing a translated mesh gives the translated result.", "quantifier": "for every mesh, step size in [0,1] and iteration count, in exact arithmetic", "why_tests_cant": "claim about all inputs and iteration counts", "anchors": ["src/tinymesh/filters/smooth.cpp:smoothLaplacian"]}
{"id": "C30", "title": "Laplacian matrices annihilate constants and are symmetric", "statement": "Every row of the adjacency, cotangent and Belkin08 Laplacian matrices sums to zero; the adjacency and cotangent matrices are symmetric, and adjacency has the degree on its diagonal.", "quantifier": "for every consistent mesh, in exact arithmetic", "why_tests_cant": "matrix identity for meshes of any size", "anchors": ["src/tinymesh/ops/operators.cpp:getMeshLaplacian", "src/tinymesh/core/halfedge.cpp:Halfedge::cotWeight"]}
{"id": "C31", "title": "Triangle::closestPoint returns a point of the triangle", "statement": "The returned point is a convex combination of the three corners, and the division in the selected branch is never by zero.", "quantifier": "for every non-degenerate or degenerate triangle and every query point, in exact arithmetic", "why_tests_cant": "branch selection over a continuous space", "anchors": ["src/tinymesh/core/triangle.cpp:Triangle::closestPoint"]}
{"id": "C32", "title": "Triangle::closestPoint returns a nearest point", "statement": "No point of the triangle is closer to the query than the returned point.", "quantifier": "for every triangle and query point, in exact arithmetic", "why_tests_cant": "continuous input space; wrong region classification shows only for some queries", "anchors": ["src/tinymesh/core/triangle.cpp:Triangle::closestPoint", "src/tinymesh/core/triangle.cpp:Triangle::distance"]}
{"id": "C33", "title": "BVH queries agree with brute force", "statement": "For a non-empty triangle list within the supported coordinate range, BVH::distance equals the minimum over all triangles of Triangle::distance, and BVH::closestPoint is the closest point of a triangle attaining it, independent of how the tree was split.", "quantifier": "for every triangle list, every query point and every tree shape, in exact arithmetic", "why_tests_cant": "pruning errors show only for particular trees and queries", "anchors": ["src/tinymesh/core/bvh.cpp:BVH::closestPoint", "src/tinymesh/core/bvh.cpp:BVH::distance", "src/tinymesh/core/bounds.h:Bounds3"]}
{"id": "C34", "title": "BVH construction terminates and loses no triangle", "statement": "Building a BVH terminates, every split produces two non-empty halves, every triangle ends up in exactly one leaf and every node's box contains the triangles below it.", "quantifier": "for every triangle list, in exact arithmetic", "why_tests_cant": "endless recursion occurs only for particular coincident centroids", "anchors": ["src/tinymesh/core/bvh.cpp:BVH::constructRec", "src/tinymesh/core/bvh.cpp:BVH::construct"]}
{"id": "C35", "title": "Bounding box algebra", "statement": "Merging boxes and points gives the smallest box containing both, is associative, commutative and idempotent; inside is decided exactly; distance is zero exactly for points inside and never exceeds the distance to any point of the box; maxExtent is the first of the longest axes and area is the surface area.", "quantifier": "for all boxes and points, in exact arithmetic", "why_tests_cant": "algebraic laws over a continuous space", "anchors": ["src/tinymesh/core/bounds.h:Bounds3"]}
{"id": "C36", "title": "Hausdorff distance is a symmetric, non-negative quantity that vanishes on identical meshes", "statement": "getHausdorffDistance(a,b) equals getHausdorffDistance(b,a), is non-negative, and is zero when both meshes are the same mesh.", "quantifier": "for every pair of meshes with at least one reported triangle, in exact arithmetic", "why_tests_cant": "metric laws over all pairs", "anchors": ["src/tinymesh/ops/metrics.cpp:getHausdorffDistance", "src/tinymesh/ops/metrics.cpp:getPerVertexShortestDistances", "src/tinymesh/core/bvh.cpp:BVH"]}
{"id": "C37", "title": "Principal curvature values are the ordered eigenvalues", "statement": "For every symmetric 2x2 curvature tensor the two reported principal curvatures are its eigenvalues, the maximum is not smaller than the minimum, their sum is the trace and their product the determinant; the two directions are orthonormal tangent vectors.", "quantifier": "for every symmetric tensor and orthonormal frame, in exact arithmetic", "why_tests_cant": "continuous input space with case distinctions", "anchors": ["src/tinymesh/ops/features.cpp:getPrincipalCurvaturesFromTensors"]}
{"id": "C38", "title": "Principal directions belong to their curvature values", "statement": "The reported direction of maximum curvature is an eigenvector of the tensor for the maximum principal curvature (and likewise for the minimum).", "quantifier": "for every symmetric tensor with distinct eigenvalues, in exact arithmetic", "why_tests_cant": "continuous input space", "anchors": ["src/tinymesh/ops/features.cpp:getPrincipalCurvaturesFromTensors"]}
{"id": "C39", "title": "rotationFromTwoVectors rotates the first vector onto the second", "statement": "For all unit vectors that are not parallel, the returned matrix is a proper rotation (orthogonal, determinant one) and maps the first vector to the second; for parallel equal vectors it is the identity; opposite vectors are reported as an error or handled.", "quantifier": "for all pairs of unit vectors, in exact arithmetic", "why_tests_cant": "continuous input space", "anchors": ["src/tinymesh/core/utils.h:rotationFromTwoVectors", "src/tinymesh/core/utils.h:rotationAxisAngle"]}
{"id": "C40", "title": "Voronoi areas partition each triangle", "statement": "The Voronoi areas of the three corners of a triangle are non-negative and sum to its area, up to the 1e-20 regularisation of the cotangent.", "quantifier": "for every non-degenerate triangle, in exact arithmetic", "why_tests_cant": "case distinction acute/obtuse over a continuous space", "anchors": ["src/tinymesh/core/vertex.cpp:Vertex::volonoiArea", "src/tinymesh/core/vec.h:cot", "src/tinymesh/core/vec.h:obtuse"]}
{"id": "C41", "title": "Dihedral angles are well defined and symmetric", "statement": "dihedral always returns a value in [0, pi], is unchanged when the two ends of the edge are swapped and when the two triangles are swapped, and is 0 for degenerate triangles.", "quantifier": "for all four points, in exact arithmetic", "why_tests_cant": "continuous input space", "anchors": ["src/tinymesh/core/vec.h:dihedral"]}
{"id": "C42", "title": "Denoising weights fall off with distance", "statement": "The distance weight used by the normal denoising filters is non-negative, zero beyond four sigma, and non-increasing in the distance.", "quantifier": "for every sigma > 0 and all distances, in exact arithmetic", "why_tests_cant": "monotonicity over a continuum", "anchors": ["src/tinymesh/filters/denoise.cpp:K"]}
{"id": "C43", "title": "Filters respect locked vertices", "statement": "denoiseNormalGaussian, denoiseNormalBilateral, denoiseL0Smooth and implicitFairing leave locked vertices where they are, like smoothLaplacian and smoothTaubin do.", "quantifier": "for every mesh and set of locked vertices", "why_tests_cant": "depends on the set of locked vertices", "anchors": ["src/tinymesh/filters/denoise.cpp:denoiseNormalGaussian", "src/tinymesh/filters/smooth.cpp:implicitFairing", "src/tinymesh/core/vertex.h:Vertex::lock"]}
{"id": "C44", "title": "Progress reporting never breaks an operation", "statement": "Switching verbose on does not change whether an operation completes: the progress bar accepts every step sequence that simplifyQEM produces.", "quantifier": "for every removal target and every sequence of two-face steps up to it", "why_tests_cant": "fails only for particular parities and sizes of the target", "anchors": ["src/tinymesh/core/progress.h:ProgressBar", "src/tinymesh/remesh/simplify.cpp:simplifyQEM"]}
{"id": "C45", "title": "Saving and loading preserves the reported mesh", "statement": "Loading a file written by save gives a mesh with the same triangles over the same (rounded) positions, whenever rounding keeps distinct positions distinct.", "quantifier": "for every mesh obtained by construction whose triangles are all reported, and every rounding that is injective on its positions", "why_tests_cant": "depends on all meshes and the rounding of the text or float32 format", "anchors": ["src/tinymesh/core/mesh.cpp:Mesh::saveOBJ", "src/tinymesh/core/mesh.cpp:Mesh::savePLY", "src/tinymesh/core/mesh.cpp:Mesh::loadOBJ", "src/tinymesh/core/mesh.cpp:Mesh::loadPLY"]}
{"id": "C46", "title": "Collapsing keeps the mesh saveable", "statement": "A mesh with boundary on which collapseHE succeeded can be cloned, or saved and loaded again, without a non-manifold error.", "quantifier": "for every constructed mesh and every sequence of collapses", "why_tests_cant": "requires an interior edge joining two boundary vertices", "anchors": ["src/tinymesh/core/mesh.cpp:Mesh::collapseHE", "src/tinymesh/core/mesh.cpp:Mesh::construct", "src/tinymesh/core/mesh.cpp:Mesh::clone"]}
{"id": "C47", "title": "Vector arithmetic obeys the usual laws", "statement": "Vector addition, subtraction, scaling, dot, cross, length and normalize satisfy the usual identities; subtracting a scalar from a vector subtracts it from every component; dividing by zero is reported.", "quantifier": "for all vectors and scalars, in exact arithmetic", "why_tests_cant": "algebraic laws over a continuous space", "anchors": ["src/tinymesh/core/vec.h:Vec"]}
{"id": "C48", "title": "Heat kernel signatures are non-negative and decay in time", "statement": "For non-negative eigenvalues every heat kernel signature entry is non-negative and does not grow as the time parameter grows.", "quantifier": "for every spectrum and eigenvector matrix returned by the solver, in exact arithmetic", "why_tests_cant": "continuum of spectra and times", "anchors": ["src/tinymesh/ops/features.cpp:getHeatKernelSignatures"]}
{"id": "C49", "title": "Iterator post-increment behaves like pre-increment on a copy", "statement": "it++ advances the iterator like ++it and returns an iterator equal to the old one, from which iteration ends after the remaining elements.", "quantifier": "for every consistent mesh and iterator position", "why_tests_cant": "goes wrong only when continued from the returned copy", "anchors": ["src/tinymesh/core/vertex.cpp:Vertex::VertexIterator::operator++(int)", "src/tinymesh/core/face.cpp:Face::VertexIterator::operator++(int)"]}
{"id": "C50", "title": "Vector constructors stay inside their arrays", "statement": "Constructing a vector from components writes only elements of the vector, and the components are the arguments.", "quantifier": "for every dimension for which the constructor compiles and all arguments", "why_tests_cant": "an out-of-bounds write of one element need not be visible in any test", "anchors": ["src/tinymesh/core/vec.h:Vec"]}
{"id": "C51", "title": "Mesh averages are true means", "statement": "getMeanEdgeLength and getMeanDihedralAngle return the sum over the edges, each counted once, divided by the number of edges; getMeanFaceArea returns the sum of the areas of the faces divided by their number.", "quantifier": "for every consistent mesh with at least one face and all finite positions, in exact arithmetic", "why_tests_cant": "counting every edge once must hold for all connectivities and orders of the half-edge array", "anchors": ["src/tinymesh/core/mesh.cpp:Mesh::getMeanEdgeLength", "src/tinymesh/core/mesh.cpp:Mesh::getMeanDihedralAngle", "src/tinymesh/core/mesh.cpp:Mesh::getMeanFaceArea", "src/tinymesh/core/face.cpp:Face::area"]}
{"id": "C52", "title": "Simplification keeps the boundary", "statement": "Every vertex at the boundary of the mesh is still present after simplifyQEM, still at the boundary and in exactly the same place.", "quantifier": "for every consistent mesh, target, trial count, order of the queue, result of the linear solver and floating point semantics", "why_tests_cant": "a boundary vertex could be merged, moved by smoothing or detached by a flip after any history of contractions", "anchors": ["src/tinymesh/remesh/simplify.cpp:simplifyQEM"]}
{"id": "C53", "title": "Contraction targets minimise the quadric error", "statement": "The position to which simplifyQEM contracts an edge minimises the sum of the squared distances to the planes of the inner faces around its two ends if the quadric is well conditioned (determinant at least 1e-8), and is the midpoint of the edge otherwise.", "quantifier": "for every consistent mesh and all finite positions, in exact arithmetic with an exact linear solver", "why_tests_cant": "optimality is a statement about all points of space, and the accumulation of the quadrics about all connectivities", "anchors": ["src/tinymesh/remesh/simplify.cpp:computeQEM", "src/tinymesh/remesh/simplify.cpp:simplifyQEM"]}
{"id": "C54", "title": "Simplification respects locked vertices", "statement": "Every locked vertex is still present after simplifyQEM and in exactly the same place.", "quantifier": "for every consistent mesh, target and trial count", "why_tests_cant": "whether a locked vertex is met depends on the order of the queue and on earlier contractions", "anchors": ["src/tinymesh/remesh/simplify.cpp:simplifyQEM"]}
{"id": "C55", "title": "fillHoles keeps the mesh simple", "statement": "After fillHoles no two different half-edges run from the same vertex to the same vertex: the triangles that fill a hole do not use a diagonal that is already an edge of the mesh.", "quantifier": "for every consistent mesh whose faces are triangles or holes", "why_tests_cant": "whether a diagonal of the hole is already an edge depends on the whole mesh and on the triangulation the dynamic program chooses", "anchors": ["src/tinymesh/core/mesh.cpp:Mesh::fillHoles", "src/tinymesh/core/completion.cpp:Mesh::holeFillMinDihedral_"]}
{"id": "C56", "title": "Implicit fairing is a stable backward Euler step", "statement": "In exact arithmetic, with cotangent weights that are not negative and not all zero at a vertex, the linear system of implicitFairing is regular for every step size of at least zero, its solution is the unique backward Euler step for the normalised cotangent Laplacian, every half-space that contains the mesh also contains the result however large the step size is, and rigid motions of the input carry over to the output.", "quantifier": "for every consistent mesh with such weights, every step size and number of iterations, and every solver that solves regular systems exactly", "why_tests_cant": "the claim covers all step sizes and all meshes, and a run shows floating-point results of an iterative solver only", "anchors": ["src/tinymesh/filters/smooth.cpp:implicitFairing", "src/tinymesh/core/halfedge.cpp:Halfedge::cotWeight"]}
{"id": "C57", "title": "Denoising projects to the filtered planes", "statement": "On a consistent mesh of triangles with positive area and finite positions, denoiseNormalGaussian and denoiseNormalBilateral return normally, change nothing but positions, and put every vertex at the area weighted mean of its projections to the planes through the centres of its faces with the filtered normals; a round moves no vertex further than the farthest centre of its faces, leaves a flat mesh as it is, and the Gaussian filter commutes with changes of scale and translations. If some face is not a triangle, for example a hole with four or more sides, they never return normally.", "quantifier": "for all consistent meshes, all finite positions for which the faces keep positive area, all parameters and iteration counts (the last part: for all meshes and any arithmetic)", "why_tests_cant": "A test compares a few meshes with stored results up to a tolerance. The formula, the bound and the invariance hold for every mesh and every choice of the parameters, including weights that vanish because neighbours are too far away.", "anchors": ["src/tinymesh/filters/denoise.cpp:19-32", "src/tinymesh/filters/denoise.cpp:38-102", "src/tinymesh/filters/denoise.cpp:104-172"]}
{"id": "C58", "title": "L0 denoising minimises its energy in every round", "statement": "On a consistent mesh with finite positions and positive mean edge length, whose edges have positive length and a triangle of positive area after the smoothing, and with an exact linear solver, a weight alpha that is not negative and a positive weight beta, denoiseL0Smooth returns normally after the first number of rounds N with beta * sqrt(2)^N >= 1000 (forty for the default), changes nothing but positions, and each round gives the unique minimiser of squared distance from the input plus weighted regularisation plus weighted squared distance of the edge operator from its thresholded target; the edge operator sums to zero, is perpendicular to the edge and vanishes exactly when the two triangles are coplanar and not folded or one has area zero; planar meshes stay in their plane and rigid motions commute with the filter. With beta not positive the function never terminates, with beta of at least 1000 it returns the input positions.", "quantifier": "for all consistent meshes, all finite positions as described, all alpha and beta, all orders in which the hash set of edges may be traversed, all exact solvers (termination and skipping: all solvers)", "why_tests_cant": "A test runs one mesh with one set of weights and compares with a tolerance. That the matrix is regular, that the result is the minimiser and that the loop ends or does not end are statements about all meshes and all weights; non-termination cannot be observed by a test at all.", "anchors": ["src/tinymesh/filters/denoise.cpp:174-314", "src/tinymesh/filters/filters.h", "src/tinymesh/core/mesh.cpp:138-174"]}
{"id": "C59", "title": "Vertex normals", "statement": "On a consistent mesh with finite positions Vertex::normal returns the direction of the sum of the face normals, each divided by the squared lengths of its two edges at the vertex; it throws if and only if that sum is zero or a neighbour in one of the faces coincides with the vertex. If all faces at the vertex are triangles inscribed in a sphere and facing outwards the result is exactly the unit vector from the centre to the vertex, whatever the shape and number of the triangles; if they lie in a plane and face the same side, the result is the normal of that side.", "quantifier": "for all consistent meshes, all vertices and all finite positions", "why_tests_cant": "The exactness on spheres is an identity for all irregular stars of triangles; a test samples a few stars and compares with a tolerance, and does not show when the exception occurs.", "anchors": ["src/tinymesh/core/vertex.cpp:45-60"]}
{"id": "C60", "title": "Angle defects satisfy Gauss-Bonnet", "statement": "At every vertex of a consistent closed mesh of triangles with positive area volonoiArea() is positive and K() is the angle defect divided by it; the sum over all vertices of K() times volonoiArea() is 2 pi times the Euler characteristic, and the areas of the vertices add up to the area of the mesh up to 1e-20 for each triangle.", "quantifier": "for all consistent closed triangle meshes of any genus and number of components, all finite positions with triangles of positive area", "why_tests_cant": "The identity links local quantities of all vertices with the topology of the mesh; tests can check it on finitely many meshes only.", "anchors": ["src/tinymesh/core/vertex.cpp:71-105", "src/tinymesh/core/vertex.cpp:144-186"]}
{"id": "C61", "title": "Mean curvature of a vertex", "statement": "H() is the mean curvature of Meyer et al.: on a consistent mesh it is computed from the cotangent Laplacian, the normal and the mixed area of the vertex, it is zero where the triangles at the vertex lie in a plane, and 1/r where they are inscribed in a sphere of radius r and not obtuse.", "quantifier": "for all consistent meshes, all vertices with triangles of positive area around them", "why_tests_cant": "A test with a tolerance on one sphere does not tell a formula that is exact on all inscribed stars from one that is close, and a factor can be hidden in the reference value.", "anchors": ["src/tinymesh/core/vertex.cpp:188-233", "src/tinymesh/core/vertex.h:53-56"]}
{"id": "C62", "title": "Curvature tensor of a triangle", "statement": "For every triangle of positive area the local frame built by the curvature code is orthonormal, with the unit normal of the triangle as third axis. For all normals given at the corners the tensor is the only symmetric 2x2 matrix that fits the changes of the normals along the edges best in the sense of least squares, and it is exact if the normals are the values of a symmetric linear map. For all second fundamental forms given at the corners the derivative tensor is the only cubic form that fits their changes along the edges best. Both linear systems are regular.", "quantifier": "for all triangles of positive area, all normals and all second fundamental forms at their corners, all solvers that solve regular systems", "why_tests_cant": "Optimality and uniqueness compare the result with all other tensors, regularity concerns all triangles.", "anchors": ["src/tinymesh/ops/features.cpp:204-260", "src/tinymesh/ops/features.cpp:362-435"]}
{"id": "C63", "title": "Curvature tensors and principal curvatures of vertices", "statement": "On a consistent closed mesh of triangles in general position getCurvatureTensors returns for every vertex the mean of the tensors of the faces around it, weighted by mixed areas, for the axes of the vertex turned into the planes of the faces. On every mesh inscribed in a sphere of radius r both principal curvatures returned by getPrincipalCurvatures without smoothing are 1/r.", "quantifier": "for all consistent closed triangle meshes, all finite positions meeting the stated conditions, all solvers that solve regular systems", "why_tests_cant": "Exactness on inscribed meshes is a statement about all triangulations of the sphere; a systematic error that tends to zero with the mesh size disappears in the tolerance of a test on a fine mesh.", "anchors": ["src/tinymesh/ops/features.cpp:178-309", "src/tinymesh/ops/features.cpp:311-340", "src/tinymesh/ops/features.cpp:268-274"]}
{"id": "C64", "title": "Curvature functions reject faces that are no triangles", "statement": "On a consistent mesh with a face, such as a hole, that has not exactly three sides, getCurvatureTensors, getPrincipalCurvatures and getPrincipalCurvaturesWithDerivatives never return normally.", "quantifier": "for all consistent meshes, all arithmetics, all solvers, with and without smoothing", "why_tests_cant": "States that no execution on any such mesh reaches the end.", "anchors": ["src/tinymesh/ops/features.cpp:206-214", "src/tinymesh/ops/features.cpp:364-372"]}
{"id": "C65", "title": "An edge collapse turns no face over", "statement": "In exact arithmetic collapseHE accepts an edge exactly under its documented conditions (no boundary, degrees, two common neighbours, face orientation test), never refuses an edge for the orientation test when no face would be turned, and never accepts an edge whose collapse turns a face of the removed vertex against the vector area of its ring.", "quantifier": "for all consistent meshes, all finite positions, all half-edges whose removed end is surrounded by triangles", "why_tests_cant": "The test is made on consecutive faces only; whether it misses a turned face depends on where the ring of the vertex starts relative to the edge, which a random test meets seldom, and no test shows that it never refuses a good edge.", "anchors": ["src/tinymesh/core/mesh.cpp:760-785", "src/tinymesh/core/mesh.cpp:Mesh::collapseHE"]}
{"id": "C66", "title": "Collapsing a face is two edge collapses", "statement": "collapseFace on a consistent mesh without NaN coordinates aborts if the face is no triangle; otherwise it tries to collapse the first edge of the face and then the next one in the resulting mesh, never touches a freed half-edge, leaves a consistent mesh, and returns true exactly if both edges were collapsed (two vertices, twelve half-edges and four faces fewer).", "quantifier": "for all consistent meshes, all faces, every arithmetic (positions that compare equal to themselves)", "why_tests_cant": "The second collapse uses a half-edge saved before the first one freed six others; that it is never a freed one is a statement about all neighbourhoods.", "anchors": ["src/tinymesh/core/mesh.cpp:845-866"]}
{"id": "C67", "title": "The feature-line field is the harmonic extension of the line directions", "statement": "On a closed mesh with finite curvature data, an edge is classified as ridge or valley exactly by the stated curvature conditions whatever the order of its ends, faces are marked by what crosses them, and getFeatureLineFieldWithFlags returns on the vertices of lines the mean of the in-plane perpendiculars towards ridges and away from valleys, with flag 1, and elsewhere the unit vectors of the only cotangent-harmonic extension, with flag 0; the system is regular and the internal checks never fail; it throws exactly if the extension vanishes at a vertex.", "quantifier": "for all consistent closed meshes without degenerate triangles, all finite curvature data, all solvers exact for regular symmetric systems, if no cotangent weight is negative and edges of positive weight lead from every vertex to a line", "why_tests_cant": "Regularity of the system and uniqueness of the extension are statements about all meshes; a test sees a solver return something in both the regular and the singular case.", "anchors": ["src/tinymesh/ops/features.cpp:506-735"]}
{"id": "C68", "title": "Every vertex gets a unit direction from the feature-line field", "statement": "getFeatureLineField returns a vector of length one for every vertex of every closed mesh without degenerate triangles.", "quantifier": "for all consistent closed meshes, all finite curvature data, all exact solvers", "why_tests_cant": "The failing case, a mesh without any ridge or valley such as a sphere, is not in the test data, and whether a singular system is noticed depends on rounding.", "anchors": ["src/tinymesh/ops/features.cpp:652-735"]}
{"id": "C69", "title": "The curvature mixture of the completion is fitted by expectation maximisation", "statement": "holeFillContextCoherent fits a mixture of three normal distributions to the vertex curvatures; every round divides by no zero, keeps positive weights with sum one, positive variances and means strictly inside the range of the samples, is exactly one round of expectation maximisation, and never decreases the likelihood.", "quantifier": "for all finite lists of finite samples that are not all equal, after any number of rounds", "why_tests_cant": "Monotone likelihood and positivity of the variances are inequalities over all samples and rounds; a test checks a few numbers after 20 rounds.", "anchors": ["src/tinymesh/restore/completion.cpp:118-172"]}
{"id": "C70", "title": "The patch radius is a defined integer", "statement": "The radius of the patches of holeFillContextCoherent is ceil(1 / (meanEdgeLength * mu_1) + 1) for the mean mu_1 > 0 of the second component of the fitted mixture, and computing it is free of undefined behaviour for every mesh.", "quantifier": "for all meshes (closed meshes without degenerate triangles)", "why_tests_cant": "The failing case is exact equality of all curvatures, as on a sphere; with rounding the outcome is arbitrary and depends on the machine.", "anchors": ["src/tinymesh/restore/completion.cpp:111-181"]}
{"id": "C71", "title": "solveRigidICP returns the best rigid motion for the pairs of closest signature", "statement": "solveRigidICP pairs every source vertex with a target vertex whose heat kernel signature is closest, and returns a proper rotation and a translation for which the sum of the squared distances between targets and moved sources is smallest among all rotations and translations.", "quantifier": "for all patches with finite positions and signatures in which every source has a target within 1e20, and all exact singular value decompositions", "why_tests_cant": "The minimum is over the infinite group of rigid motions and must hold for every patch, including degenerate ones where the decomposition is not unique.", "anchors": ["src/tinymesh/restore/completion.cpp:26-78"]}
{"id": "C72", "title": "The error of solveRigidICP is the mean squared distance after the motion, and the best candidate has the smallest one", "statement": "The value returned by solveRigidICP is the mean of the squared distances between the targets and the moved sources, and holeFillContextCoherent picks the candidate patch for which this value is smallest.", "quantifier": "for all patches with finite positions and signatures, all candidate lists", "why_tests_cant": "The code adds the translation to points that are already centred; the returned value is plausible (non-negative, zero for equal patches at the origin) and only an exact statement separates it from the right one.", "anchors": ["src/tinymesh/restore/completion.cpp:79-85", "src/tinymesh/restore/completion.cpp:326-351"]}
{"id": "C73", "title": "Patch descriptors are the normalised mean and standard deviation of the signatures", "statement": "descriptors[i] consists of the mean of each entry of the signatures in the patch divided by the largest mean, followed by the standard deviation of each entry divided by the largest one.", "quantifier": "for all patches with finite signatures, a positive mean and a positive variance", "why_tests_cant": "The division uses the number of vertices of the mesh instead of the size of the patch; the first half is not affected because of the normalisation, so only the second half is wrong, by an amount depending on the patch.", "anchors": ["src/tinymesh/restore/completion.cpp:279-303"]}
{"id": "C74", "title": "Candidate patches are those with the closest descriptors", "statement": "For every target vertex the candidates are max(10, nSrc / 1000) different source vertices, and no other source vertex has a closer descriptor.", "quantifier": "for all finite descriptors, all numbers of source vertices, every correct sort", "why_tests_cant": "Being among the closest is a statement about all remaining vertices; with fewer than ten source vertices the read past the end usually goes unnoticed.", "anchors": ["src/tinymesh/restore/completion.cpp:305-320"]}
{"id": "C75", "title": "The advancing front closes the hole with triangles and leaves the rest of the mesh alone", "statement": "For a consistent mesh and a hole whose loop visits no vertex twice, the first stage of Mesh::holeFillAdvancingFront_ ends, and then the mesh is consistent, the hole face and all new faces are triangles, every other face keeps its half-edges in the same order, and no vertex except the corners of the hole has moved. The new triangles have no other old vertices than corners of the hole, and every face next to the hole is next to one of these triangles afterwards.", "quantifier": "for all consistent meshes, all holes with at least three sides and distinct corners, all numbers of rounds; returned runs for every arithmetic, outcomes for all finite positions", "why_tests_cant": "The loop inserts and deletes elements an unbounded number of times and relinks pointers by index arithmetic; whether every intermediate mesh is consistent depends on an invariant (unlocked vertices were made by the front, the face behind such a side is a new triangle) that no finite set of holes exercises.", "anchors": ["src/tinymesh/core/completion.cpp:230-521"]}
{"id": "C76", "title": "Every round merges a short side or fills the smallest angle according to its size", "statement": "A round with at least four sides left merges the ends of a side that is shorter than half of the mean edge length and starts at a vertex made by the front; otherwise it takes a corner with the smallest angle and adds one triangle up to 75 degrees, two triangles with one new vertex up to 135 degrees, and three triangles with two new vertices above. It fails exactly with an exception, for one of three listed degenerate positions.", "quantifier": "for all consistent meshes with finite positions in exact arithmetic, all holes with distinct corners whose neighbours are triangles, all rounds of all runs", "why_tests_cant": "The angle is measured with sines, cosines and the normals of the triangles behind the front; that the search finds the smallest of all angles, in each case of convex, straight and reflex corners, is a statement about all shapes of the front.", "anchors": ["src/tinymesh/core/completion.cpp:258-312", "src/tinymesh/core/completion.cpp:327-500"]}
{"id": "C77", "title": "The boundary of the hole stays in place and no boundary marks remain", "statement": "The vertices of the hole are locked at the start and do not move, new vertices are not locked, and after the hole is closed no half-edge between two triangles is marked as boundary.", "quantifier": "for all consistent meshes and holes with distinct corners", "why_tests_cant": "The lock of the wrong vertex is tested (face_vs[i] twice), so a locked vertex moves only when a new vertex comes close to it; the marks are cleared only for the last triangle, which is not visible in the shape.", "anchors": ["src/tinymesh/core/completion.cpp:236-239", "src/tinymesh/core/completion.cpp:251-255", "src/tinymesh/core/completion.cpp:264-299"]}
{"id": "C78", "title": "New vertices of the front lie inside the hole on the lines that divide the angle", "statement": "A new vertex has the mean of the two side lengths as distance from its corner and lies inside the hole on the line that halves the angle (or on the two lines that divide it into three parts).", "quantifier": "for all positions of the corner and its neighbours in exact arithmetic", "why_tests_cant": "The direction is the sum of the two sides without normalisation, which is right for equal sides and for angles below 180 degrees only; plausible holes have nearly equal sides.", "anchors": ["src/tinymesh/core/completion.cpp:380-389", "src/tinymesh/core/completion.cpp:431-443"]}
{"id": "C79", "title": "After the front only new vertices inside the hole move", "statement": "The vertices moved by the last stage of Mesh::holeFillAdvancingFront_ are exactly those that can be reached from the last triangle through vertices that are not locked; all of them were made by the front. Whenever the whole function returns, the hole is closed with triangles, and all other vertices are where the front left them. With finite positions it never runs into undefined behaviour, whatever the solver returns.", "quantifier": "for all consistent meshes, holes with distinct corners, numbers of rounds, solvers and orders of iteration over the set of vertices", "why_tests_cant": "The set is visited in the order of its hash values, and the search runs through locks set by an earlier stage; a path from the last triangle to an old vertex would move a part of the given mesh, for one order of events among all.", "anchors": ["src/tinymesh/core/completion.cpp:523-546", "src/tinymesh/core/completion.cpp:633-703"]}
{"id": "C80", "title": "The normals of the new vertices are blended from the normals of the surface around the hole", "statement": "In each of the 1000 rounds the normal of a new vertex becomes one half of itself and one half of the weighted mean of the normals of its neighbours, so that the normals of the rim spread into the hole.", "quantifier": "for all consistent meshes with finite positions in exact arithmetic, all lists of vertices and numbers of rounds", "why_tests_cant": "A missing entry of an unordered_map is a zero vector, so the result is only shorter before it is normalised; on nearly flat samples the normals look right.", "anchors": ["src/tinymesh/core/completion.cpp:548-567"]}
{"id": "C81", "title": "Each face gets the rotation that takes its normal to the blended normal", "statement": "For each triangle at a new vertex the matrix computed from the axis and the angle between the normal of the triangle and the mean of the normals at its corners is the rotation that takes the first to the second.", "quantifier": "for all triangles and all pairs of unit vectors", "why_tests_cant": "The axis is not normalised, so the matrix is right for equal normals and close to it for small angles.", "anchors": ["src/tinymesh/core/completion.cpp:569-600"]}
{"id": "C82", "title": "The new vertices are moved to the surface with the rotated gradients", "statement": "The new positions solve the Poisson equation for the gradients of the old positions, rotated face by face. In particular, with no rotation the vertices stay where they are.", "quantifier": "for all consistent meshes with finite positions in exact arithmetic, all solvers that solve symmetric systems exactly, weights not negative and every new vertex connected with the rim", "why_tests_cant": "The wrong sign and the division by the number of neighbours are not visible for flat holes, where the right-hand side is zero for every sign.", "anchors": ["src/tinymesh/core/completion.cpp:602-703"]}
{"id": "C83", "title": "The patch of a vertex is the set of faces within the given number of steps", "statement": "The breadth-first search around a vertex returns each face of its star and each face reached from the star by a chain of at most r faces with common edges exactly once; the vertices of the patch are the corners of these faces; sources are the locked vertices and targets the others. The search always ends and does not change the mesh.", "quantifier": "for all consistent meshes, vertices, radii and orders in which the sets are visited", "why_tests_cant": "Whether a face is found depends on the order of the queue and on the distances stored with repeated entries; a wrong bound on the distance loses faces only on meshes with several paths.", "anchors": ["src/tinymesh/restore/completion.cpp:206-267"]}
{"id": "C84", "title": "Matched patches are compared in the common frame", "statement": "The dissimilarity of two patches is a weighted mean of the squared distances between the field at a target vertex and the turned field at the source vertex whose image under the rigid motion is closest; the tree built for the source patch holds the image of each of its faces, and a query returns a closest point of these triangles.", "quantifier": "for all consistent meshes with finite positions, patches of triangles, rigid motions, fields, and all library algorithms that keep the promises of the standard", "why_tests_cant": "The closest vertex is found by scanning, with a null pointer if none is closer than 1e20; shared corners are merged by exact equality of moved positions, so a slip shows only for special coordinates.", "anchors": ["src/tinymesh/restore/completion.cpp:352-411"]}
{"id": "C85", "title": "New vertices move towards the place proposed by the matched patches, corrected by a smooth offset", "statement": "Locked vertices do not move. Every other vertex moves one tenth of the way to the weighted mean of the closest points on the matched patches around it plus an offset; the offset is harmonic (cotangent weights) with the differences between position and mean at the locked vertices of the rim as boundary values.", "quantifier": "for all consistent meshes with finite positions in exact arithmetic, all targets, all solvers that solve symmetric systems exactly, weights not negative and every new vertex connected with the rim", "why_tests_cant": "The system mixes three numberings (vertices, targets, boundary); a wrong row or sign gives plausible positions after a step of one tenth.", "anchors": ["src/tinymesh/restore/completion.cpp:414-508"]}
{"id": "C86", "title": "Remeshing splits long edges, collapses short ones without making long ones, and flips only to improve degrees", "statement": "The split loop splits exactly the visited edges at least as long as long * average that can be split, at the midpoint. The collapse loop touches only edges not longer than short * average with no locked corner in their two faces, and makes no edge of long * average or more. The flip loop flips exactly the flippable interior unlocked edges whose flip lowers the sum of the deviations of all degrees from six (four on the boundary). If nothing qualifies, a round only smooths.", "quantifier": "for all consistent meshes, half-edges, limits and visiting orders; lengths in exact arithmetic", "why_tests_cant": "Remeshing looks plausible with a reversed comparison or a test on the wrong end of the edge; the defect shows only when the removed end of a collapsed edge is the one with more neighbours.", "anchors": ["src/tinymesh/remesh/remesh.cpp:23-39", "src/tinymesh/remesh/remesh.cpp:82-193"]}
{"id": "C87", "title": "The repair between two iterations of completion ends, removes the defects it looks for and keeps the original mesh", "statement": "On a mesh of triangles without flags every loop of the repair ends and the mesh stays consistent. Afterwards no edge at a target is longer than 1.5 times the average; no edge with opposite angles of more than two right angles at a target can be flipped; no edge with an opposite angle below 18 degrees can be collapsed; no face with an area below a hundredth of the average can be collapsed. Locked vertices are not removed, vertices are not moved, new vertices are not locked and lie between old ones. False in two respects: the loop over faces can go on from a freed half-edge, and locked vertices can be removed.", "quantifier": "for all consistent meshes of triangles without flags with finite positions in exact arithmetic, all averages (length positive) and all lists of targets", "why_tests_cant": "The loops repeat until nothing changes while splitting and collapsing edges at the same vertex; termination and the access to freed half-edges depend on rare combinations of accepted and refused collapses.", "anchors": ["src/tinymesh/restore/completion.cpp:510-613"]}
{"id": "C88", "title": "A vertex made by the repair gets the mean of the signatures of its known neighbours", "statement": "The update of the table of heat kernel signatures keeps every signature that exists. A vertex without one gets, in the order of the vertices, the mean of the signatures of those neighbours that have one at that moment: the neighbours with an old signature and those new ones that come before it. If every new vertex has such a neighbour, all signatures are finite and every component stays within the range of the old ones. A new vertex without such a neighbour gets NaN in every component.", "quantifier": "for all consistent meshes of triangles and holes, all partial tables of signatures of the same length", "why_tests_cant": "Whether a new vertex has a neighbour with a signature depends on the order in which the repair has made vertices; the range of the means holds for chains of new vertices of any length.", "anchors": ["src/tinymesh/restore/completion.cpp:615-632"]}
{"id": "C89", "title": "The first stage of completion closes all holes, keeps the triangles and locks exactly the given vertices", "statement": "Whenever the first stage of context coherent completion returns, the mesh consists of triangles only and no half-edge is flagged; every triangle of the given mesh is still there with its corners, and with its neighbours except at the holes, where the neighbour is now a triangle of the filling. Exactly the vertices of the given mesh are locked, and those that are not on a hole have not moved. With finite positions and a solver that returns finite numbers there is no undefined behaviour and no failing assertion: the stage throws, goes on for ever, or returns with the mean length of the edges and the mean area of the faces of the closed mesh. If all holes have three sides it returns, adds nothing and moves nothing.", "quantifier": "for all consistent meshes of triangles and any number of holes with any number of sides whose corners are distinct and which share no edge, all solvers and all orders in which sets are visited", "why_tests_cant": "The loop over the faces runs while holes are replaced by triangles, faces are removed and others take their places in the array; that no hole is missed and that filling one hole does not undo another holds only by an invariant over the whole loop.", "anchors": ["src/tinymesh/restore/completion.cpp:97-116"]}
{"id": "C90", "title": "Simplification contracts exactly the edges that pass its tests, to the new place, and flips only towards degree six", "statement": "An edge taken from the queue is contracted exactly if neither end has been treated before, both ends are inside and have at least four neighbours, all common neighbours have at least four, and no triangle is turned over. The remaining vertex is then at the new place, two faces are counted, and the six half-edges of the two faces are not considered again; other edges are left alone. The flips after the pass are exactly those that bring the degrees nearer to six. (False for the code in two points: triangles that stay can be turned over, since only the two vanishing faces are tested, and the new place is lost if the start of the half-edge has the larger degree. Proved: the exact conditions with the test of the two vanishing faces, the effect of each step, the place if the start has no more neighbours than the end, the flips, and both counterexamples.)", "quantifier": "for all consistent meshes of triangles and holes with finite positions in exact arithmetic, all queues, all candidate places, all sets of removed half-edges and treated vertices", "why_tests_cant": "Whether a triangle is turned over depends on the exact geometry around an edge and on which end the collapse keeps; meshes used in tests are smooth and the error is hidden by the smoothing that follows.", "anchors": ["src/tinymesh/remesh/simplify.cpp:196-351"]}
{"id": "C91", "title": "Tensors are smoothed to means over the neighbours, and the derivatives of curvature are means of the best fits on the faces", "statement": "smoothingTensors keeps the axes of every vertex and replaces its tensor by the mean, weighted by distance, of its own and those of its neighbours, each taken for the axes turned into the plane of the neighbour; curvatures do not leave a range that contains zero. getPrincipalCurvaturesWithDerivatives returns the curvatures and directions of getPrincipalCurvatures, and as derivatives, in the two principal directions, the means, weighted by mixed areas, of the trilinear forms that fit the changes of the second fundamental forms of the corners along the edges of each face best; they are zero at umbilic points. (False for the code in one point: the form that is differentiated has the two principal curvatures exchanged, at every vertex where they differ by 1e-6 or more. The rest is proved.)", "quantifier": "for all consistent closed triangle meshes with finite positions in exact arithmetic, triangles of positive area and normals in general position, with and without smoothing; smoothing for all finite symmetric tensors with unit axes; every solver that solves regular systems", "why_tests_cant": "The values are sums over all faces around a vertex of fits in planes turned by rotations; there is no reference value for a general mesh, and on spheres and planes, for which the result is known, all derivatives vanish for wrong formulas as well.", "anchors": ["src/tinymesh/ops/features.cpp:25-31", "src/tinymesh/ops/features.cpp:83-127", "src/tinymesh/ops/features.cpp:311-499"]}
{"id": "C92", "title": "Simplification considers the edges in the order of their quadric error", "statement": "The node that is pushed for a half-edge holds the place the edge is to be contracted to; its value is the sum of the squared distances of that place to the planes of the inner faces around both ends (up to the factor that Eps causes). It is not negative, never NaN, and equal for the two half-edges of an edge. So the queue yields every half-edge once, in the order of the costs at the begin of the trial, and the first edge that is contracted is the cheapest one among all edges that can be contracted; if there is none, the pass leaves the mesh alone.", "quantifier": "for all consistent meshes of triangles and holes with finite positions in exact arithmetic, every exact solver, every priority queue that keeps the contract of the standard library, all targets", "why_tests_cant": "The order of the contractions is internal; a wrong value or a reversed comparison still gives a valid mesh with the right number of faces, only a worse one.", "anchors": ["src/tinymesh/remesh/simplify.cpp:66-113", "src/tinymesh/remesh/simplify.cpp:177-201"]}
{"id": "C93", "title": "The union-find tree tells which elements have been merged", "statement": "After any calls of root, merge and same, root ends, reads nothing outside of the vector, and the roots of two elements are equal exactly if the elements have been merged, directly or by way of others; same tells the same. (False for the code: same compares the entries of the vector. It calls two elements that have never been merged the same, and two that have been merged different. Proved: root and merge are right; what same computes; both counterexamples.)", "quantifier": "for trees of all sizes and all sequences of calls with elements of the tree; indices outside are undefined behaviour", "why_tests_cant": "Depends on all sequences of merges and path compressions; the structure is not used by the library, so no test reaches it.", "anchors": ["src/tinymesh/remesh/simplify.cpp:26-62"]}
{"id": "C94", "title": "A saved OBJ file is well-formed and loads to the same surface", "statement": "What saveOBJ writes is a text in the OBJ format (one statement per line, words separated by single blanks, vertices numbered from one, all corners of triangles numbers of vertices); its content is the positions of the mesh and its triangles, in order and orientation; and reading it into a new mesh gives the same triangles over the same positions. (False for the last part: numbers are written with the default precision of std::ostream, so different positions can be written alike and are merged when the file is read. Proved: the text is well-formed and has exactly that content with the rounded positions; loading gives the same surface if rounding keeps positions apart, no vertex is at two holes, the two sides of every edge have the same boundary mark and the table of half-edges is not moved while the boundary is added; every mesh with two vertices has positions, all different, for which the file has the same position twice.)", "quantifier": "for all consistent meshes of all sizes, all ways of writing numbers as words without blanks and line breaks, and all ways of reading them", "why_tests_cant": "A test compares a few files; that every file is well-formed and read back depends on all meshes, all numbers of digits of the indices and all positions.", "anchors": ["src/tinymesh/core/mesh.cpp:482-513", "src/tinymesh/core/mesh.cpp:88-134"]}
{"id": "C95", "title": "Hash tables keyed by positions and index pairs are maps", "statement": "An unordered_map with the hash of positions (vec.h) or of pairs of indices (utils.h) gives for every sequence of lookups, insertions and assignments the results of a map in which equal keys are the same, in whatever way the table grows; in particular the construction of a mesh with the table finds exactly the equal positions (and does what the code does for NaN). This needs that std::hash gives equal numbers (both zeros) the same hash: otherwise some table misses an equal key.", "quantifier": "for all sequences of calls, all keys including NaN, all growth policies and orders in buckets, all hashes of numbers that respect equality", "why_tests_cant": "The result may depend on the number of buckets and on collisions, which a test does not control.", "anchors": ["src/tinymesh/core/vec.h:357-367", "src/tinymesh/core/utils.h:19-25", "src/tinymesh/core/mesh.cpp:94-104"]}
{"id": "C96", "title": "A PLY file is loaded as the mesh that it holds", "statement": "Loading a PLY file with coordinates and triangles gives the mesh with these positions and triangles, and an index that is out of range or data that is missing is reported. (False for the code: files whose coordinates or indices have fewer than four bytes or are missing, e.g. because the property is called vertex_index, are undefined behaviour; coordinates of eight bytes are taken for numbers of four bytes and half of them are ignored; large indices wrap around when multiplied by three and are then read from the middle of other vertices. Proved: each of these, that files with values of four bytes are loaded as what they hold if no index wraps around, and that what savePLY writes is loaded again, under the conditions of C94.)", "quantifier": "for all contents of the requested properties, all meshes, all conversions between float and double", "why_tests_cant": "The types of the values and the indices range over all files; the tests load files with four bytes only.", "anchors": ["src/tinymesh/core/mesh.cpp:406-468", "src/tinymesh/core/mesh.cpp:515-560"]}
{"id": "C97", "title": "Edits, remeshing, simplification and hole filling keep the connected pieces", "statement": "The connected pieces of the mesh (vertices joined by edges) before and after a sequence of splits, flips and collapses, after remeshTriangular, after simplifyQEM and after fillHoles correspond one to one, and a vertex that survives stays in the corresponding piece: no two pieces are joined, none is torn apart, none appears or vanishes.", "quantifier": "for all consistent meshes, all admissible sequences of edits, all orders, thresholds, numbers of iterations, targets, queues and floating point semantics", "why_tests_cant": "The pieces depend on all the edges of a mesh and on every step of the loops; tests look at single meshes and at counts of elements.", "anchors": ["src/tinymesh/core/mesh.cpp:562-932", "src/tinymesh/remesh/remesh.cpp:19-201", "src/tinymesh/remesh/simplify.cpp:115-373", "src/tinymesh/core/mesh.cpp:934-947", "src/tinymesh/core/completion.cpp:83-228"]}
{"id": "C98", "title": "Remeshing and simplification keep the holes", "statement": "remeshTriangular and simplifyQEM leave the set of half-edges with boundary marks, the set of holes, and the loop of half-edges around each hole as they are; so does every sequence of splits, flips and collapses in which no flipped edge carries a mark. The last condition is needed: flipHE accepts an edge at a triangular hole, and then the hole has become two ordinary faces with stale marks.", "quantifier": "for all consistent meshes, all orders, thresholds, numbers of iterations, targets, queues, sequences of edits and floating point semantics", "why_tests_cant": "The holes must survive every interleaving of edits near the boundary; the tests use closed meshes or look at the number of faces.", "anchors": ["src/tinymesh/core/mesh.cpp:562-932", "src/tinymesh/remesh/remesh.cpp:19-201", "src/tinymesh/remesh/simplify.cpp:115-373"]}
{"id": "C99", "title": "Measurements do not depend on where the mesh lies", "statement": "In exact arithmetic, turning and shifting the whole mesh changes no edge length, face area, dihedral angle, mean of these, cotangent weight, entry of the three Laplacians, Voronoi area, Gaussian curvature, mean curvature, principal curvature or derivative of a principal curvature; vertex normals and principal directions turn with the mesh; and a call that fails on the mesh fails in the same way on the moved mesh.", "quantifier": "for all meshes, consistent or not, all orientation-preserving rigid motions and all solvers of the least-squares problems of the faces", "why_tests_cant": "The local frames are chosen with the help of coordinates and rotated between faces; only an argument about all motions shows that the choice does not leak into the result.", "anchors": ["src/tinymesh/core/halfedge.cpp:Halfedge::length", "src/tinymesh/core/mesh.cpp:138-183", "src/tinymesh/core/vertex.cpp:45-233", "src/tinymesh/ops/operators.cpp:12-100", "src/tinymesh/ops/features.cpp:20-499"]}
{"id": "C100", "title": "The algorithms commute with rigid motions", "statement": "In exact arithmetic, building a mesh from moved vertices gives the moved mesh, and each of split, flip, collapse, face collapse, smoothLaplacian, smoothTaubin, denoiseNormalGaussian, denoiseNormalBilateral, holeFillMinDihedral, fillHoles, remeshTriangular (with the same shuffles) and simplifyQEM (with exactly solved systems and the same order of equal candidates) does to the moved mesh what it does to the mesh: it returns the moved result or fails in the same way. In particular the costs in the queue of simplifyQEM are the same.", "quantifier": "for all meshes, consistent or not, all orientation-preserving rigid motions, all parameters, shuffles and orders", "why_tests_cant": "A test compares a few motions on a few meshes, up to rounding; every comparison of lengths, angles and costs in the algorithms has to have the same result after the motion.", "anchors": ["src/tinymesh/core/mesh.cpp:185-947", "src/tinymesh/filters/smooth.cpp:23-99", "src/tinymesh/filters/denoise.cpp:38-172", "src/tinymesh/core/completion.cpp:83-228", "src/tinymesh/remesh/remesh.cpp:19-201", "src/tinymesh/remesh/simplify.cpp:30-373"]}
{"id": "C101", "title": "Edits replace exactly the triangles at the edge", "statement": "A split replaces the two triangles of the edge by their four halves, a flip of an unflagged edge replaces them by the two triangles at the other diagonal with the same orientation, a collapse removes them and puts one end of the edge in the place of the other in all further triangles; every other triangle occurs after the edit exactly as often as before, and a rejected split or flip changes nothing.", "quantifier": "for all meshes on which the library works, all edges and all quantities collected from the corners of the triangles", "why_tests_cant": "A test compares lists of triangles of a few meshes; that no other triangle is lost, doubled or turned over is a statement about all meshes.", "anchors": ["src/tinymesh/core/mesh.cpp:Mesh::splitHE", "src/tinymesh/core/mesh.cpp:Mesh::flipHE", "src/tinymesh/core/mesh.cpp:Mesh::collapseHE"]}
{"id": "C102", "title": "Surface, area and volume under edits", "statement": "In exact arithmetic a split, and so the whole split loop of remeshTriangular, leaves the set of points of the surface, its area and the enclosed volume unchanged. A flip adds the volume of the tetrahedron of the four corners and changes nothing if the two diagonals meet. After a collapse area and volume are those of the mesh with the removed end moved to the other end.", "quantifier": "for all meshes on which the library works, all positions, all edges, all orders of the edges and all length limits", "why_tests_cant": "Area and volume of test meshes agree only up to rounding and for the chosen meshes; equality of point sets cannot be tested.", "anchors": ["src/tinymesh/core/mesh.cpp:Mesh::splitHE", "src/tinymesh/core/mesh.cpp:Mesh::flipHE", "src/tinymesh/core/mesh.cpp:Mesh::collapseHE", "src/tinymesh/remesh/remesh.cpp:81-100"]}
{"id": "C103", "title": "Queries of a built mesh agree with the triangle list", "statement": "After construct has returned normally: two vertices are joined by an edge exactly if a triangle that was taken has an edge between them; Vertex::isBoundary holds exactly at the ends of edges of only one triangle; Vertex::degree is the number of neighbours in the triangle list; face number i is triangle number i with three corners, Face::isBoundary and Face::isHole say whether some or all of its edges belong to no other triangle, and all further faces are holes; numEdges is half of three per triangle plus one per edge of only one triangle; two vertices are in one piece exactly if edges of the list lead from one to the other. For a manifold list all triangles are taken.", "quantifier": "for all vertex and index lists for which construct returns", "why_tests_cant": "Agreement of the linked structure with the list has to hold for every combination of triangles, including repeated and degenerate ones; tests look at a few files.", "anchors": ["src/tinymesh/core/mesh.cpp:185-326", "src/tinymesh/core/vertex.cpp", "src/tinymesh/core/face.cpp", "src/tinymesh/core/mesh.cpp:51-59"]}
{"id": "C104", "title": "The file name decides the format", "statement": "load and save treat a file called b.obj as OBJ and a file called b.ply as PLY, in any directory and for every non-empty b; under every other name (other extensions, upper case, names like .obj, names ending in a slash) load ends the program and save writes nothing. A mesh built from valid input without isolated triangles that is saved under one such name and loaded under another gives the same faces over the rounded positions.", "quantifier": "for all file names, also with embedded null characters, and all meshes", "why_tests_cant": "Tests use a handful of file names; names with several dots, leading dots and dots in directories are what goes wrong.", "anchors": ["src/tinymesh/core/mesh.cpp:Mesh::load", "src/tinymesh/core/mesh.cpp:Mesh::save", "src/tinymesh/core/filesystem.h"]}
{"id": "C105", "title": "Uniform smoothing shortens edges", "statement": "In exact arithmetic smoothLaplacian with uniform weights and a step size in [0, 1] never increases the sum of the squared edge lengths of a mesh; with a step size strictly between it strictly decreases the sum as soon as a vertex ends at another position, and one step decreases it by at least 4 eps (1 - eps) times the degree-weighted sum of squared distances of the free vertices to the means of their neighbours.", "quantifier": "for all consistent meshes, positions, step sizes and numbers of iterations", "why_tests_cant": "The tests only check that the filter does not fail; that an energy falls for every mesh, boundary and lock pattern is a statement over all inputs.", "anchors": ["src/tinymesh/filters/smooth.cpp:smoothLaplacian", "src/tinymesh/core/vertex.cpp:Vertex::isBoundary"]}
{"id": "C106", "title": "Where repeated uniform smoothing leads", "statement": "In exact arithmetic, as the number of iterations of smoothLaplacian with uniform weights grows, every connected piece of the mesh converges geometrically: a piece with a boundary or locked vertex (step size in (0, 1]) to the only positions that agree with the input at those vertices and are the mean of the neighbours at all others, whatever the other vertices were; a piece without any (step size in (0, 1), in a mesh of triangles also the default 1) to a single point, the mean of the input weighted by degrees.", "quantifier": "for all consistent meshes, positions, step sizes and all numbers of iterations", "why_tests_cant": "A limit over infinitely many iterations cannot be run.", "anchors": ["src/tinymesh/filters/smooth.cpp:smoothLaplacian", "src/tinymesh/core/vertex.cpp:Vertex::isBoundary"]}
{"id": "C107", "title": "How far Taubin smoothing can grow or shrink a mesh", "statement": "In exact arithmetic smoothTaubin with 0 < shrink <= 1/2 and inflate > 0 multiplies the sum of the squared edge lengths by at most (1 + (inflate - shrink)^2 / (4 shrink inflate))^2 per iteration (by at most 1 if both are equal, by less than 1.0017 with the defaults), and keeps the degree-weighted mean of every connected piece without boundary or locked vertices. There is no such bound from below: every tetrahedron is scaled about its centre by (1 - 4 shrink / 3)(1 + 4 inflate / 3) per iteration, with the defaults by 0.569.", "quantifier": "for all consistent meshes, positions, parameters in the range and numbers of iterations below 2^30", "why_tests_cant": "A growth factor over all meshes and all numbers of iterations; the tests only run the filter once.", "anchors": ["src/tinymesh/filters/smooth.cpp:smoothTaubin"]}
{"id": "C108", "title": "No program of edits and algorithms reaches undefined behaviour", "statement": "A program that works on a consistent mesh with splitHE, collapseHE, flipHE on edges between triangles, setPos, lock, unlock, smoothLaplacian, smoothTaubin, remeshTriangular and simplifyQEM, in any order and with any arguments (indices out of range, values that are not numbers), ends with a consistent mesh that has the same Euler characteristic and connected pieces, or is stopped by an assertion or the exception for a division by zero; it never accesses freed or missing elements and never loops for ever. In exact arithmetic with valid arguments it always succeeds, verify accepts the result, and fillHoles then closes all holes.", "quantifier": "for all consistent meshes, all finite programs, arithmetics, shuffles, queue orders and linear solvers; iteration counts below 2^30 and face counts that fit into int", "why_tests_cant": "Tests run single algorithms on a few models; here the algorithms are combined in every order and the invariant has to hold in between.", "anchors": ["src/tinymesh/core/mesh.cpp:splitHE", "src/tinymesh/core/mesh.cpp:collapseHE", "src/tinymesh/core/mesh.cpp:flipHE", "src/tinymesh/filters/smooth.cpp:smoothLaplacian", "src/tinymesh/filters/smooth.cpp:smoothTaubin", "src/tinymesh/remesh/remesh.cpp:remeshTriangular", "src/tinymesh/remesh/simplify.cpp:simplifyQEM"]}
{"id": "C109", "title": "The fairing and denoising filters never reach undefined behaviour, alone or in programs", "statement": "On a consistent mesh, with any arithmetic and whatever the linear solver returns: implicitFairing always returns; denoiseNormalGaussian and denoiseNormalBilateral return, or are stopped by the exception for a division by zero or by the assertion for a face that is not a triangle, the latter only if such a face exists; denoiseL0Smooth returns, is stopped by the exception, or stays in its loop, and the latter cannot happen in exact arithmetic when beta is positive. When they return, only positions have changed. Programs that mix these filters with edits, smoothing, remeshing and simplification never reach undefined behaviour and end with a consistent mesh.", "quantifier": "for all consistent meshes, parameters (also values that are not numbers), iteration counts, solvers, orders of the hash set, and finite programs of calls", "why_tests_cant": "Tests use well conditioned meshes, where the solver converges; here the solver may return anything, and the calls come in any order.", "anchors": ["src/tinymesh/filters/smooth.cpp:implicitFairing", "src/tinymesh/filters/denoise.cpp:denoiseNormalGaussian", "src/tinymesh/filters/denoise.cpp:denoiseNormalBilateral", "src/tinymesh/filters/denoise.cpp:denoiseL0Smooth"]}
{"id": "C110", "title": "The example programs never reach undefined behaviour on meshes whose holes have no chords", "statement": "Between loading and saving, the example programs (remesh, simplify, the three smoothing programs, noise and the three denoising programs) end with a consistent mesh with the same Euler characteristic and the same connected pieces, or are stopped by an assertion or exception of the library; in exact arithmetic remeshing, simplification with a target that is not zero, Taubin smoothing, fairing and noise succeed, and the denoising of normals can only be stopped by a division by zero. The loop of the hole filling example, whose upper limit mesh.numFaces() grows while it runs and which swaps faces, ends and fills every hole. Its second loop, with advancing fronts, leaves only triangles and no hole whenever it returns, keeps all triangles and vertices, and locks exactly the corners of the holes in addition; with finite positions it never reaches undefined behaviour or a failing assertion, and it always returns if all holes are triangles. With a ratio that is not negative and exact arithmetic, the simplification example fails by an assertion exactly when the ratio times the number of faces (counted before filling) rounds to zero.", "quantifier": "for all consistent meshes whose holes have no chords (any holes for the loop and the denoising filters; for the loop with fronts, holes that visit no vertex twice and share no edge), all arguments of the programs, solvers, orders and random numbers", "why_tests_cant": "The examples are run by hand on a few large models; small meshes, odd ratios, several holes and the growth of the face array during the loop are not covered by any test.", "anchors": ["examples/cpp/example_remesh.cpp:main", "examples/cpp/example_simplify.cpp:main", "examples/cpp/example_smooth.cpp:main", "examples/cpp/example_denoise.cpp:main", "examples/cpp/example_hole_fill.cpp:main"]}
{"id": "C111", "title": "Pointers to vertices and faces stay valid until a function that removes elements is called", "statement": "A program that keeps the pointers returned by mesh.vertex(i) and mesh.face(i) and mixes their use with edits, smoothing, denoising, remeshing, simplification and hole filling never reads freed memory if it drops all pointers after collapseHE, remeshTriangular and simplifyQEM, and the pointers to faces after a hole has been filled. It ends with a consistent mesh that has the elements to which the remaining pointers point, or is stopped by a check of the library; undefined behaviour is left only where hole filling finds no angle below its limit, which cannot happen in exact arithmetic. As long as nothing is removed, an index denotes the same vertex or face. The rule is needed: after a successful collapse every use of a pointer to the removed end is undefined behaviour, and so is every use of a pointer to a face after filling it, also after any later calls. Pointers to different holes do not disturb each other: collected beforehand they can be filled in any order and with any bounds. A default-constructed Vertex or Face answers most queries, and the Face counts as a hole, but filling it is undefined behaviour.", "quantifier": "for all consistent meshes, finite programs, indices, arguments and orders of filling (holes without chords, and through a pointer only holes that have no other hole next to them, where the result has to be a simple mesh)", "why_tests_cant": "Use after free often goes unnoticed, since freed memory keeps its contents for a while; tests hold no pointers across editing calls.", "anchors": ["src/tinymesh/core/mesh.h:vertex", "src/tinymesh/core/mesh.h:face", "src/tinymesh/core/vertex.cpp:isBoundary", "src/tinymesh/core/face.cpp:isHole", "src/pybind11.cpp:PYBIND11_MODULE", "src/tinymesh/restore/completion.cpp:holeFillMinDihedral"]}
{"id": "C112", "title": "What the tests of the library check holds for every mesh, and what they cannot notice", "statement": "On every consistent mesh the test of loading passes exactly if all positions are finite and there is a face. In exact arithmetic, on every consistent mesh with finite positions, the tests of hole filling, of the Laplacian matrices (if some edge has a length other than zero) and, where the holes have no chords, of Laplacian smoothing, Taubin smoothing, implicit fairing, L0 smoothing (if the mesh has an edge) and remeshing pass; the tests of the filters of normals can be stopped only by a division by zero. The tests of simplification to one half and one tenth pass if that part of the faces, counted after filling and rounded down, is not zero, and otherwise the assertion of the library stops them. The test of heat kernel signatures is stopped by an assertion on every mesh with at most 200 vertices, because it asks for as many eigenvalues as there are vertices; on larger meshes it passes if the eigenvalue solver succeeds. The tests of the curvatures pass if, after filling, all triangles have positive area and the normals are in general position. The test of the distance to a tree passes on every mesh with a face and coordinates of at most 1e19; on a mesh without faces it dereferences a null pointer. It passes also where the distance is wrong, since both sides of its comparison use the same closest point: on a tetrahedron, with a vertex as query, both sides are at least one instead of zero.", "quantifier": "for all consistent meshes, finite positions, queries, solvers, orders of candidates and standard libraries", "why_tests_cant": "The tests of the library load six fixed files and draw one random query; what a test that passes says about other meshes, and whether its comparison can fail at all, is a statement about all inputs.", "anchors": ["tests/test_mesh.cpp:MeshLoad", "tests/test_mesh.cpp:MeshClosetPoint", "tests/test_remesh.cpp:HoleFill", "tests/test_remesh.cpp:SimplifyQEMOneTenth", "tests/test_filters.cpp", "tests/test_ops.cpp:GetLaplacian", "src/tinymesh/core/face.cpp:toTriangle", "src/tinymesh/core/bvh.cpp:distance", "tests/test_ops.cpp:GetHeatKernelSignatures"]}
{"id": "C113", "title": "Measurements follow the unit of length and mirroring", "statement": "When every coordinate is multiplied by the same number s other than zero (for s < 0 the mesh is also mirrored in the origin), lengths of edges and their mean are multiplied by the absolute value of s, areas of faces and their mean by s squared, and dihedral angles, their mean, the normals of the vertices and the graph Laplacian do not change. A call that fails on one of the two meshes fails with the same error on the other.", "quantifier": "for all meshes with real coordinates, consistent or not, all elements and all s other than 0", "why_tests_cant": "A test measures models in the one unit they are stored in; an absolute constant among the terms shows only in units that no test uses.", "anchors": ["src/tinymesh/core/halfedge.cpp:length", "src/tinymesh/core/face.cpp:area", "src/tinymesh/core/mesh.cpp:getMeanEdgeLength", "src/tinymesh/core/mesh.cpp:getMeanDihedralAngle", "src/tinymesh/core/vertex.cpp:normal", "src/tinymesh/ops/operators.cpp:getMeshLaplacianAdjacent"]}
{"id": "C114", "title": "Edits, uniform smoothing, normal filters, hole filling and remeshing do not depend on the unit of length or on mirroring", "statement": "Building a mesh from positions multiplied by a number s other than zero (for s < 0 also mirrored in the origin) gives the scaled mesh. Splitting, flipping and collapsing edges, collapsing faces, verification, Laplacian smoothing with uniform weights, Taubin smoothing, denoising with Gaussian and bilateral filters of normals, the filling of holes by least dihedral angle and area, and remeshing with the same random shuffles, run on the scaled mesh with the same parameters, return the same value or error and leave the scaled result. In particular the constants 1e12 with which hole filling starts its minima do not matter, and remeshing compares lengths with fractions of the mean length only.", "quantifier": "for all meshes with real coordinates, consistent or not, all parameters, numbers of rounds, shuffles and all s other than 0", "why_tests_cant": "The models of the tests have one size each; whether a threshold is absolute is visible only by comparing runs on all sizes.", "anchors": ["src/tinymesh/core/mesh.cpp:construct", "src/tinymesh/core/mesh.cpp:collapseHE", "src/tinymesh/filters/smooth.cpp:smoothLaplacian", "src/tinymesh/filters/smooth.cpp:smoothTaubin", "src/tinymesh/filters/denoise.cpp:denoiseNormalBilateral", "src/tinymesh/core/completion.cpp:holeFillMinDihedral_", "src/tinymesh/remesh/remesh.cpp:remeshTriangular"]}
{"id": "C115", "title": "Cotangent weights, the Laplacian of Belkin et al. and simplification do not depend on the unit of length", "statement": "In every unit of length the cotangent weights are the same, the Laplacian of Belkin et al. is the same up to a factor, and computeQEM returns the same place for an edge, scaled. (False of the code: halfedge.cpp clamps the doubled area of a triangle at 1e-6, operators.cpp divides a squared length by a mean length, and simplify.cpp adds 1e-12 to the length of a normal and compares a determinant with 1e-8. The cotangent Laplacian is the same in two units in which all triangles have a doubled area of at least 1e-6.)", "quantifier": "for all consistent meshes with real coordinates and all s > 0", "why_tests_cant": "The thresholds take effect on meshes that are small in the unit used, while the tests load models of ordinary size.", "anchors": ["src/tinymesh/core/halfedge.cpp:cotWeight", "src/tinymesh/ops/operators.cpp:getMeshLaplacianBelkin08", "src/tinymesh/ops/operators.cpp:getMeshLaplacianCotangent", "src/tinymesh/remesh/simplify.cpp:computeQEM"]}
{"id": "C116", "title": "Edits can be taken back", "statement": "If flipHE has flipped an edge of which neither half-edge is flagged, flipHE on the same half-edge gives back the arrays, positions, marks, edges, degrees and triangles that were, provided that the two corners beside the edge had at least four neighbours; otherwise the second flip returns false and changes nothing. If splitHE has split an edge and collapseHE then collapses an edge between the new vertex and an end x of the split edge, there are as many vertices, half-edges and faces as before, and the triangles are those that were, with the vertex that stays in the place of x. If x has more than four neighbours it is the new vertex that stays, so the corner is then where splitHE put the new vertex. All other vertices keep their positions and locks.", "quantifier": "for all consistent meshes, all half-edges and all positions", "why_tests_cant": "The tests make each kind of edit once and compare element counts. That the triangles are back, and when the second edit is refused or removes the old vertex, depends on the degrees around the edge.", "anchors": ["src/tinymesh/core/mesh.cpp:flipHE", "src/tinymesh/core/mesh.cpp:splitHE", "src/tinymesh/core/mesh.cpp:collapseHE"]}
{"id": "C117", "title": "Messages reach the terminal completely and in order", "statement": "A formatted text is exactly what the conversions yield when its length is below 2^31 - 1; longer texts and errors of snprintf throw, but for the length 2^31 - 1 the size of the buffer overflows (undefined behaviour). A PrintStream loses, doubles or swaps nothing: at any time the written text followed by the buffer is what was put in, fewer than 128 characters wait in the buffer, none after std::endl, and everything is written when the stream is destroyed. Print, Info, Debug, Warn and Error show their tag, the text and the end of line; only Error does not return. A message with an end of line is written in one piece exactly when tag and text have fewer than 128 characters; otherwise the end of line is a separate piece. If the text cannot be made, the tag is left on the terminal and an exception is thrown. A failing assertion ends the program with its label, throws in the Python module, and has no effect when assertions are disabled.", "quantifier": "for all sequences of stream operations, all texts of any length, all kinds of messages and all builds", "why_tests_cant": "The tests do not look at the output; the limits of the buffer (128 characters) and of int (2^31) and the failure of snprintf need particular texts.", "anchors": ["src/tinymesh/core/debug.h:PrintStream", "src/tinymesh/core/debug.h:STR_FMT", "src/tinymesh/core/debug.h:Error", "src/tinymesh/core/debug.h:Assertion"]}
{"id": "C118", "title": "Context coherent completion as a whole keeps the surface and the locked vertices", "statement": "Whatever the linear algebra, the sort, the orders of sets and the arithmetic yield: if the iterations of the context coherent completion return on a closed mesh of triangles without double edges, the result is again such a mesh, with the same Euler characteristic and the same pieces; every vertex that is locked in it was locked before and is at exactly the same position, and no vertex that is left has lost its lock. For the whole function, started on a mesh with holes: if it returns and the first stage makes no double edge, the locked vertices of the result are exactly the vertices of the given mesh that are left, and those that are not at a hole are exactly where they were. If all vertices are locked, in particular if the first stage adds no vertex, the iterations change nothing at all.", "quantifier": "for all meshes, all arithmetics, all results of the libraries, all numbers of iterations and all runs that return", "why_tests_cant": "The function takes hundreds of decisions from floating point numbers in each iteration; a test sees one sequence of moves, splits, flips and collapses.", "anchors": ["src/tinymesh/restore/completion.cpp:holeFillContextCoherent"]}
{"id": "C119", "title": "Functions for constant objects change nothing", "statement": "Every constant member function of Vertex, Face, Halfedge and Mesh and every function of ops.h that takes a const Mesh & leaves the whole mesh exactly as it was, whenever it returns: positions, links, flags, locks and arrays. So a question can be put between any two steps of a program without changing what the program does, and the answers to two questions do not depend on the order in which they are asked.", "quantifier": "for all meshes, consistent or not, all arithmetics, all linear solvers, all programs around the question", "why_tests_cant": "The type system does not enforce it, since Mesh::vertex(int) const hands out pointers to elements that can be changed; a test compares only what it looks at, before and after one call on one mesh.", "anchors": ["src/tinymesh/core/mesh.h:33-89", "src/tinymesh/core/vertex.h:35-88", "src/tinymesh/core/face.h:36-65", "src/tinymesh/core/halfedge.h:24-59", "src/tinymesh/ops/ops.h:20-67"]}
{"id": "C120", "title": "A mesh that has been built is ready for completion unless it has a triangle without neighbours", "statement": "In a mesh built by Mesh::construct every vertex is a corner of at most one of the faces added for the boundary, and that face passes it once. The conditions under which the completion functions are described here (every face a triangle or a hole with distinct corners, no edge between two holes) hold exactly if every triangle that was taken shares an edge with another one. For such a mesh the context coherent completion, if it returns, leaves a closed mesh of triangles, locked exactly at the vertices of the input, with every input vertex that is not on the boundary in its place. If no edge between two triangles joins two vertices on the boundary, the holes have no chords, so that filling them keeps the mesh consistent and the example programs are safe; in exact arithmetic building and the programs that remesh, simplify, smooth, fair or add noise succeed on every such list with finite positions.", "quantifier": "for all vertex and index lists that are accepted, all libraries, all numbers of rounds; for the completion as a whole the mesh has no double edge after the holes have been filled; for the success in exact arithmetic the vector of half-edges has room for the boundary (as in C02) and the target of simplification is not zero", "why_tests_cant": "Whether two boundary faces can meet in a vertex depends on the whole list of triangles; no set of sample files covers the lists that are accepted.", "anchors": ["src/tinymesh/core/mesh.cpp:185-365", "src/tinymesh/restore/completion.cpp:97-638", "src/tinymesh/core/mesh.cpp:934-947"]}
