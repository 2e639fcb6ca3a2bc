# Formal model of tinymesh: design

Source under study: `/repo` (C++), read as text. All paths below are relative to `/repo`; lines refer to the pinned commit.

## 1. Trusted base

* The Lean 4.33 kernel. Theorems depend on at most `propext`, `Classical.choice`, `Quot.sound` (section 7).
* Mathlib 4.33 (real numbers, square roots, trigonometry, Euclidean space, finite sets) as compiled in the sandbox.
* The hand translation of C++ to Lean: every model definition cites the file and lines it models and lists its
  simplifications. Nothing is extracted automatically and the code is never run.
* Assumptions on code outside the repository, each of them an explicit parameter or hypothesis:
  * `std::vector` growth: any function (`Mesh.grow`); the new capacity is at least one more than the size.
  * `std::nth_element`, `std::partition`: any behaviour allowed by the standard (`Lib.Std` in `Model/Bvh.lean`).
  * `std::shuffle` / `std::random_device`: any permutation, in fact any list of valid indices in `remeshTriangular`.
  * `std::priority_queue`: any order of equal and even unequal costs in `simplifyQEM`.
  * Eigen solvers: `Matrix4d::inverse` / `colPivHouseholderQr` in `simplifyQEM` may return anything; `BiCGSTAB` in
    `implicitFairing` is a parameter; the theorems of C56 assume that it solves regular systems exactly (`LinSolve.Exact`).
  * `std::unordered_map`, `std::unordered_set`: association lists compared with `==` (C95 proves this of tables with chaining for `construct` and for maps with values that are numbers); iteration order never matters or is a parameter.

## 2. What the model looks like

### 2.1 Scalars
`Model/Scalar.lean` has a class `Scalar F` with the operations the code uses on `double` (`+ - * / sqrt acos atan2 exp`,
comparisons, `==`) and **no laws**; `ScalarX` adds `abs sin cos log` and the conversion to `int`.
Every theorem about the half-edge structure is proved for *all* instances, so it holds whatever the floating point unit
returns, including NaN. Two law packages are used where needed and are hypotheses of the theorem: `EqLaw` (`==` is a partial
equivalence, needed to merge equal positions) and `PosRange` (a set of positions without NaN, closed under midpoints).

Theorems about geometry are proved in exact arithmetic: over `ℝ`, or over `XR` (`Model/Exact.lean`) = reals with `+inf`,
`-inf` and `NaN`, where division by zero, `0*inf`, `inf-inf`, `sqrt` of negatives and comparisons with NaN behave like in IEEE 754.
A result `XR.fin r` therefore says that no division by zero or other invalid operation took part. *Rounding is not modelled
in these theorems.* Simplifications of `XR`: no negative zero, no overflow of finite values; `sin`, `cos`, `atan2` at infinities are
NaN.

Samples for counterexamples and non-vacuity run over `ℚ` with a square root that is exact on squares
(`Spec/Sample.lean`), by kernel evaluation.

### 2.2 Heap
`Model/State.lean`. A mesh is a heap of vertices, half-edges and faces, addressed by natural numbers (`0` is `nullptr`), plus the
three arrays `vertices_`, `halfedges_`, `faces_` (lists of addresses) and `indices_`. An address is readable only while the object is
alive; reading or writing through null or a freed address gives the distinct outcome `Err.ub`. Objects are freed when the array that
owns them shrinks or is cleared. Addresses are never reused (simplification: the C++ allocator may reuse them; no modelled code compares
a stale address with a new one). The capacity of `halfedges_` is part of the state because `construct` keeps a reference into that vector
while appending to it.

Outcomes of a call: `ok value newState`, `err ub` (undefined behaviour), `err abort` (`Error`, `Assertion`: exit), `err throw` (C++ exception,
e.g. division by zero in `Vec`), `err diverge` (a loop visits more elements than exist, hence never ends).

Integers are unbounded, except where a property is about overflow: `2*iterations` in `smoothTaubin` (C27), `faces - target` in
`simplifyQEM` (C26), the number of half-edges in `remeshTriangular` (C23: below 2^31 is a hypothesis), the progress bar (C44).

### 2.3 Parallel loops
`Model/Par.lean`. A loop body is a program (`Prog`) that loads and stores single doubles at locations (`Loc`: coordinates of positions and of
local arrays). Links, indices, flags and locks are stored to by no parallel loop and are read from the mesh at loop start. A pool
of such programs runs with arbitrary interleaving (`Spec/Par.lean`); a race is two accesses of different iterations to the same location,
one of them a store. Exceptions inside a parallel region end the program (`err throw` of that iteration). The sequential loop is
`serial`; C28 shows that all interleavings give its outcome. Simplification: a coordinate used several times in one expression is
loaded once.

### 2.4 Specification
`Spec/*.lean` states what a consistent mesh is (`WF`), without the helper functions of the model: liveness, `rev` a
fixed-point free involution, `rev` starts where the half-edge ends, `next` injective, loops = faces, rings = vertices, dense indices. `TriOrHole`
says that each face is a triangle or a hole flagged on both sides. `Simple`: no two half-edges join the same ordered pair of vertices, no self
loop. `Good` is the conjunction. Geometric notions (`E3` = Euclidean 3-space of Mathlib, `Mesh.AtE`, normals, areas, weights, energies,
averages, quadrics) are defined on `E3` and `ℝ`, not with the vector functions of the model.

## 3. Properties

`properties.jsonl` has the statements, `MANIFEST.json` the theorems and their status. "False" below means that the code violates the
property as stated; then a counterexample theorem is proved and the part that holds has the suffix `_partial`.

| id | modelled code | method, disagreements |
|----|---------------|-------|
| C01-C03 | `construct()`, `construct(v,i)` | invariants of the phases; induction over the triangle list, orbit argument for boundary loops, counting on rings |
| C04 | same | **false**: (1) reference `he` (mesh.cpp:303) dangles after growth of `halfedges_`; (2) null half-edge of vertices used only by dropped triangles (mesh.cpp:290). Exact condition for undefined behaviour proved |
| C05 | mesh.cpp:185-208 | **false**: the triangle swapped into the place of a degenerate one is not checked again |
| C06 | mesh.cpp:88-107 | induction over the index list |
| C07 | `getVertexIndices`, `isHole` | **false**: a triangle without neighbours has all edges flagged and is taken for a hole; also rotated corners (c,a,b) |
| C08 | `clone` | **false** for the same reason; otherwise composition of C06, C07 |
| C09 | `construct(v,i)`, `load` | **false**: `indices_` is only cleared by the OBJ loader |
| C10, C11 | iterators, `degree`, `prev`, `numCorners`, `numEdges`, flags | finite orbit of an injective map, double counting |
| C12, C13, C15 | `splitHE`, `flipHE`, `collapseHE`, `remove*` | symbolic execution to an explicit new state, invariant preservation; exact acceptance conditions for split and flip |
| C14 | `flipHE` | **false**: no boundary guard |
| C16 | all four edits | **false** for `collapseFace` (first collapse done, second rejected) |
| C17-C20 | histories of edits, `verify` | induction over the history; NaN positions make `removeVertex` abort (c18_nan_abort) |
| C21, C22, C55 | `fillHoles`, `holeFillMinDihedral_`, `addNewTriangle` | invariant over the triangles of the chosen triangulation. C22 **false**: flags of the outer half-edges stay set. C55 **false**: a diagonal may exist already. NaN positions: entry -1 of the table, undefined behaviour |
| C23, C24 | `remeshTriangular` | invariant over arbitrary shuffles; feature test characterised |
| C25, C26, C52-C54 | `simplifyQEM` | invariant over arbitrary queue orders and solver results. C54 **false**: locks are ignored. Negative targets overflow (c26_overflow) |
| C27-C29 | `smoothLaplacian`, `smoothTaubin` | frame property; race freedom; convexity |
| C30, C51 | `ops/operators.cpp`, mesh averages | algebra of triplet sums. C51 **false** for face area of polygons (adds ears) |
| C31, C32 | `Triangle::closestPoint` | case analysis over ℝ/XR. C32 **false**: `bp` is computed from the wrong corner |
| C33, C34 | `BVH` | induction over the tree / over the construction |
| C35 | `Bounds3` | order algebra |
| C36 | `ops/metrics.cpp` | symmetric; zero on identical meshes **false** (follows from C32) |
| C37, C38 | `getPrincipalCurvaturesFromTensors` | C38 **false**: directions always swapped; C37 **false** at umbilic points (zero directions) |
| C39 | `rotationFromTwoVectors` | **false**: opposite vectors throw; angles below 1e-12 give the identity |
| C40, C41 | `volonoiArea`, `dihedral` | algebra |
| C42 | `K` of denoise.cpp | **false**: jumps up at 2 sigma |
| C43 | filters | **false** for implicitFairing, both normal filters and denoiseL0Smooth |
| C44 | `ProgressBar` | **false**: odd totals up to 39 overshoot and throw; a step in the first millisecond converts infinity to an integer |
| C45, C46 | save / load at the level of parsed numbers; a mesh can be cloned exactly if no vertex has two holes, and edits keep it so | C46 **false**: collapsing an edge between two boundary vertices pinches the mesh; it holds for all other edits and for closed meshes |
| C47, C50 | `Vec` | C47 **false**: `v - s` multiplies. C50 **false**: the constructor of `Vec2` writes `elems[2]` |
| C48 | heat kernel signature | **false**: one time step divides 0 by 0; fewer than two eigenvalues read out of range |
| C49 | post-increment | **false**: the copy iterates over the full ring |
| C56 | `implicitFairing` | diagonally dominant M-matrix; uniqueness; convexity |
| C57 | `denoiseNormalGaussian`, `denoiseNormalBilateral` | symbolic execution of the three loops to the formula; Cauchy-Schwarz; scaling |
| C58 | `denoiseL0Smooth` | positive definite least squares, uniqueness, geometry of the edge operator; with `beta <= 0` the loop never ends, with `beta >= 1000` the smoothing is discarded (both proved). The test of the condition of the loop is bounded by fuel in the model; running out is the outcome `diverge` |
| C59 | `Vertex::normal` | formula; on spheres an argument by inversion: the inverted edges end in a plane, so the cross products around the closed ring add up to a multiple of its normal |
| C60 | `volonoiArea()`, `K` | symbolic execution, re-indexing of closed rings, angle sum of triangles, double counting |
| C61 | `H` | **false**: the result is the sum of the principal curvatures, twice the mean curvature of the cited paper (a factor 1/2 is missing). Exactly `2/r` on spheres |
| C62 | face frame, face tensor, face derivative tensor | least squares: the normal equations are definite for a triangle of positive area, completing the square |
| C63 | `getCurvatureTensors`, `getPrincipalCurvatures` | **false**: the first axis of a vertex is an edge direction that is not projected to the tangent plane, so the minimum on a sphere is too small by the factor `1 - (l/2r)²` (a third of the right value on a regular tetrahedron); the maximum is exact |
| C64 | the three curvature functions | inversion of executions that return normally |
| C65 (partial) | `collapseHE`, face orientation test | exact acceptance condition; sum of the moved normals = vector area of the ring, signs constant along the ring; counterexample on an icosahedron |
| C66 | `collapseFace` | composition of two collapses; the saved half-edge survives the first |
| C67 | `checkRV`, marking, line directions, Laplace system (features.cpp:501-735) | fold invariants with spec sums; key-numbered sparse rows; maximum principle along edges of positive weight gives regularity, uniqueness and the bound. Starts from given finite curvature data; the solver of the system is a parameter |
| C68 (partial) | same | **false**: without ridges and valleys the system is singular with zero right side; a solver that returns zero makes `normalize` throw. Opposite contributions that cancel on a line give a zero vector |
| C69 | mixture rounds (restore/completion.cpp:118-172) | the loop equals one round of expectation maximisation; Jensen's inequality gives the monotone likelihood |
| C70 (partial) | patch radius (111-181) | **false**: with equal curvatures the variances vanish, all numbers become NaN and `(int)std::ceil(NaN)` is undefined; by C63 this is so on every mesh inscribed in a sphere |
| C71 | `solveRigidICP` (26-78) | optimality of the orthogonal Procrustes solution with determinant correction, for every exact decomposition; -1 is used as an index if a source has no target within 1e20 |
| C72 (partial) | error of `solveRigidICP`, choice of the patch | **false**: `Xt` is made from the centred points but the full translation is added, so the value is too large by the squared length of the translation |
| C73 (partial) | descriptors (279-303) | **false**: division by the number of all vertices instead of the size of the patch; the normalisation hides it for the means but not for the deviations |
| C74 (partial) | candidates (305-320) | **false** with fewer than ten source vertices (read past the end); otherwise the closest ones, for every correct sort |
| C75 (partial) | advancing front (core/completion.cpp:230-521) | whenever the front returns, the hole is closed with triangles that have only corners of the hole as old vertices, and the rest is unchanged, for every arithmetic; with finite positions never undefined behaviour or a failed assertion; it throws in the first round where the faces behind the hole are folded on each other (`c75_throws`, counterexample `c75_fold_throws`: five distinct points, four triangles of positive area); missing: whether runs that do not throw end |
| C76 | one round of the front (258-500) | merge or smallest angle with one, two or three triangles, exact; exceptions characterised |
| C77 (partial) | locks and marks (236-255, 264-299) | **false**: a locked corner of the hole moves and half-edges inside stay marked, in one run on a flat square frame; what remains true is proved |
| C78 (partial) | place of new vertices (380-443) | **false** for sides of different lengths (not on the bisector) and for reflex angles (the new vertices lie over the existing triangles); distance and the case of equal lengths proved |
| C79 | vertices moved after the front (core/completion.cpp:523-546, 633-703) | the search finds exactly the vertices reachable without locks; all are new; closed hole for every arithmetic, solver and order; no undefined behaviour with finite positions |
| C80 (partial) | normals of the new vertices (548-567) | rounds and exceptions exact; **false** of the rim: its normals are zero vectors in the map and have no influence |
| C81 (partial) | rotations of the faces (569-600) | the matrix is exact; **false** that it is a rotation: it takes the normal to the other one only if they are equal or perpendicular, and shortens it otherwise |
| C82 (partial) | gradients and Poisson system (602-703) | positions are the only solution of the equation of the code; flat regions stay; **false**: without rotations the right-hand side has the wrong sign and is divided by the number of neighbours; a pyramid is turned inside out |
| C83 | patches (restore/completion.cpp:206-267) | invariant of the breadth-first search: every entry is a chain of its length, every face of the search has its neighbours in the queue; holds for every arithmetic and order of sets |
| C84 | dissimilarity and trees (352-411) | value of the dissimilarity, never negative; null pointer if nothing is near; one triangle per face in the tree and queries by C33, C34 |
| C85 | new positions (414-508) | the offsets are the only solution of the system; composed with C84: every vote is a nearest point of the moved patch |
| C86 | the decisions of `remeshTriangular` (remesh.cpp:23-39, 82-193) | false for the test before a collapse: it measures from the first end of the edge, which is the removed one if it has more neighbours (`c86_long_counterexample`, an icosahedron with one flipped edge); everything else is characterised exactly; flips strictly lower the sum over the whole mesh of the deviations of the degrees |
| C87 (partial) | the repair (510-613) | each loop ends: a split at a target with three neighbours or more halves the longest edges, flips leave fewer edges at the target, collapses fewer vertices; false: undefined behaviour if of the two edges of a small face only one can be collapsed (`c87_ub_counterexample`), locked vertices can be removed (`c87_locked_counterexample`) |
| C88 | signatures of new vertices (615-632) | the mean over the neighbours that have a signature when the vertex is visited; in the range of the old ones; NaN if there is none (`c88_nan`) |
| C89 | the first stage (97-116): locks, filling of all holes, means, flags | only triangles and no flags are left, the old triangles and their neighbours stay, exactly the old vertices are locked; no UB; three-sided holes always close (`c89_three`) |
| C90 | decisions of simplification (196-351): the tests, one candidate, the flips | exact conditions over ℝ ∪ {±∞, NaN}; **false** that the new place is used (`c90_lost_counterexample`) and that no triangle is turned over (`c90_flipped_counterexample`) |
| C91 | smoothing of the tensors and derivatives of the curvatures (features.cpp:25-31, 83-127, 311-499) | spec in Spec/Deriv: weighted means, best fits (`cubicEnergy`), turned axes; Bessel's inequality for the range; **false** that the form of the tensor is differentiated (`c91_counterexample`, a consequence of C38) |
| C92 | value of `computeQEM`, nodes and queue (simplify.cpp:66-113, 177-201) | `Mesh.Target`, `Mesh.cost`, contract `PopsLeast` of the queue in Spec/Queue; `c92_covered` links it to the arbitrary order of C25, C26, C52 |
| C93 | `UnionFindTree` (simplify.cpp:26-62, not used by the library) | classes are the equivalence relation generated by the merged pairs (`UFMerged`); **false** for `same` (`c93_counterexample`) |
| C94 | the text of an OBJ file (mesh.cpp:482-513), against a reader of the format in Spec/Text | **false** in general: rounding of numbers may merge vertices (`c94_counterexample`); the text is well-formed and its content is right for every mesh; loading it gives the same surface if rounding keeps positions apart. How a `double` is written is a parameter |
| C95 | `std::hash<Vec>`, `std::hash<IndexPair>` and hash tables with chaining (vec.h:357-367, utils.h:19-25, mesh.cpp:94-104) | tables are maps for every growth policy, if equal keys have equal hashes; the condition is needed; `construct` with a table equals `construct` with an association list |
| C96 | the bytes of a PLY file between tinyply and the mesh (mesh.cpp:446-467, 521-555) | **false**: missing properties and values of fewer than four bytes are undefined behaviour (`c96_types`), doubles are misread (`c96_double`), large indices wrap around (`c96_wrap_counterexample`); right for values of four bytes and for files written by `savePLY` |
| C97 | connected pieces under edits, remeshing, simplification, hole filling | proved: the pieces correspond one to one (`SamePieces`), vertices stay in their pieces |
| C98 | marks and holes under edits, remeshing, simplification | proved for remeshing, simplification and for edits that flip no marked edge (`KeepsHoles`); a flip at a triangular hole destroys it (`c98_edits_needed`) |
| C99 | measurements under rigid motions | proved over the reals: `Motion.Same` / `Motion.Sim`, errors included |
| C100 | algorithms under rigid motions | proved over the reals for construction, edits, smoothing, normal filters, hole filling, remeshing, simplification (exact solver, same order of candidates) |
| C101 | triangles under split, flip, collapse | proved: `Mesh.triVals` (the multiset of what any cyclic function gives at the corners of the triangles) changes in the triangles at the edge only |
| C102 | points, area, volume under edits and in the split loop of remeshing | proved (`SameSurface` in Spec/Surface); split over the extended reals |
| C103 | joined vertices, boundary, degree, faces, edge count and pieces of a built mesh, from the triangle list | proved; a triangle none of whose edges is shared is reported as a hole by `isHole` (part of the statement) |
| C104 | which file names are read and written in which format | proved (`Named` in Spec/Files); POSIX paths, C++17 `extension` |
| C105 | sum of squared edge lengths under uniform smoothing | proved, exact arithmetic (extended reals) |
| C106 | limit of uniform smoothing, per connected piece | proved, exact arithmetic; pieces without pinned vertices with step size 1 need triangles |
| C107 | growth of edges and kept mean under Taubin smoothing, exact factor on tetrahedra | proved, exact arithmetic |
| C108 | programs of edits, filters, remeshing and simplification: never undefined behaviour, always a consistent mesh | proved; any arithmetic, success in exact arithmetic |
| C109 | fairing and denoising filters, alone and in programs: never undefined behaviour, whatever the solver returns | proved; any arithmetic |
| C110 | the example programs between loading and saving (examples/cpp) | `Example.run`, `exHoleFill`; filling first, so the mesh must have holes without chords for the programs that edit; `c110_few_faces`: the simplification example aborts if ratio × faces < 1 (default ratio, fewer than ten faces); `exFrontFill`: the loop with advancing fronts closes all holes of a mesh in which no hole visits a vertex twice and no two holes share an edge, or throws, or runs on (`c110_front`, `c110_front_outcome`) |
| C111 | pointers that a client keeps (mesh.h:52-65, src/pybind11.cpp:53-146) | `Step.run` with a list of pointers; a pointer may be used until a function that removes elements has been called; beyond that `c111_collapsed`, `c111_filled` show undefined behaviour; default-constructed `Vertex`, `Face`: `c111_default` |
| C112 | `Face::toTriangle` (core/face.cpp:23-32), the tests (tests/*.cpp) | conditions under which each test passes on an arbitrary mesh; the test of `BVH::distance` compares two results of `Triangle::closestPoint`, so that it passes with a wrong distance (`c112_blind`); the test of heat kernel signatures ends the program on meshes with at most 200 vertices (`c112_signatures`) |
| C113 | measurements under a change of the unit of length, also mirrored | proved over the reals: `Zoom.Sim` with the factor |s| or s², errors included (Spec/Scale) |
| C114 | algorithms under a change of the unit of length, also mirrored | proved over the reals for construction, edits, uniform smoothing, normal filters, hole filling, remeshing; the constants 10¹² in hole filling are shown not to matter |
| C115 | cotangent weights, Laplacian of Belkin et al., `computeQEM` under a change of the unit | **false**: absolute thresholds (`c115_cot_false`, `c115_simplify_false`) and a squared length divided by a length (`c115_belkin_false`); `c115_cot_partial` holds away from the threshold |
| C116 | flip and flip back, split and collapse | proved: `Restored` (Spec/Undo) for the flip; for split and collapse the triangles are back with one corner possibly renamed |
| C117 | core/debug.h: `PrintStream`, `STR_FMT`, `Print`, `Info`, `Debug`, `Warn`, `Error`, `Assertion` | `strFmt`, `Stream`, `message`, `assertion`; what the conversions of a format yield is a parameter; a text of exactly 2³¹ − 1 characters overflows the size of the buffer (`c117_format`); messages of 128 characters or more are written in two pieces (`c117_pieces`) |
| C118 | `holeFillContextCoherent` as a whole (restore/completion.cpp:97-638) | every part either only reads (curvatures, feature lines, patches, descriptors, candidates, votes: `Proof/WholeA`) or is a sequence of steps that keep `Mended` (`Proof/WholeB`); nothing is assumed of the arithmetic; that the first stage makes no double edge is a hypothesis of `c118_whole`; whether the function returns is not part of the claim |
| C119 | the constant member functions and the functions for `const Mesh &` (mesh.h, vertex.h, face.h, halfedge.h, ops.h) | every program is split into its steps by the tactic `reads`; no hypothesis on the mesh |
| C120 | `Mesh::construct` (mesh.cpp:185-365) followed by the completion functions | the conditions `Mesh.Holed` of C89 and C118 in terms of the triangle list, and a condition on the list for `Mesh.Chordless` of C55 and C110; `c120_complete` keeps the condition that the mesh is simple after the holes have been filled |

## 4. Modelled parts, by file

| file | modelled | not modelled |
|------|----------|--------------|
| core/vec.h, bounds.h, triangle.h | all operators used by the library, closest point, boxes | printing |
| core/mesh.cpp | construct, clone, split, collapse, flip, collapseFace, verify, counts, averages, queries, load/save over parsed numbers, choice of the format, the text of OBJ files that are written | tinyobjloader, tinyply (parsers, headers), `triangulate`'s verbose output |
| core/vertex.cpp, face.cpp, halfedge.* | circulators (pre- and post-increment), degree, flags, locks, normals, areas, `K`, `H` | - |
| core/completion.cpp | minimum dihedral filling (23-228), advancing front (230-521), smoothing after it (523-703); `holeFillFront` is the two in sequence | nothing but the conjugate gradient solver inside Eigen (a parameter) |
| core/bvh.cpp | construction and queries | - |
| core/progress.h | `ProgressBar` | terminal output |
| core/debug.h | Model/Message | the conversions of `snprintf`; the bytes of `std::cout` after a piece has been handed over; failures of allocation |
| filters/smooth.cpp | smoothLaplacian, smoothTaubin, implicitFairing | warnings |
| filters/denoise.cpp | weight, both normal filters, denoiseL0Smooth (any exact solver, any order of the edges) | the iterations inside the Eigen solver |
| remesh/remesh.cpp, simplify.cpp | all of `remeshTriangular`, `simplifyQEM` | verbose output (but see C44) |
| ops/operators.cpp, metrics.cpp, features.cpp | Laplacians, Hausdorff distance, curvature tensors (per face and per vertex, smoothing), directions and derivatives, rotations, HKS formula, feature lines | Spectra eigen solver |
| restore/completion.cpp | `solveRigidICP` (26-85), mixture and patch radius (111-181), descriptors, candidates and choice of the patch (279-351), patches, trees, new positions, repair and signatures of new vertices (97-110, 182-278, 352-638) | properties are proved for the parts named by C69-C74, C83-C85 and C87-C89, and for the whole function by C118; `std::pow(x, 5)` is a product; equal points are assumed to have equal hash values; the order of the OpenMP loops |
| example programs (examples/cpp) | Model/Examples | reading of the command line, loading, saving and printing; the part of example_hole_fill.cpp with context coherent filling (its function: C89, C118, C120) |
| python bindings (src/pybind11.cpp) | programs over the bound functions and pointers (C108-C111) | conversion of arguments; lifetime of the Python objects (`vertex` and `face` return references that do not keep the mesh alive); assertions, which raise in the Python module instead of ending the process |
| tests | test_mesh.cpp (but not `MeshInvaidLoad`), test_remesh.cpp, test_filters.cpp, all of test_ops.cpp but the test of feature lines, from the point where the mesh has been loaded (C112) | test_vec.cpp (its laws: C47); `GetFeatureLineField` (C67, C68); tests of the Python module |

Other simplifications: running out of memory; the C++ allocator; calls of `printf`/`Warn` (what they show: C117); `abs` in completion.cpp is taken to be the floating
point version (with only `<cstdlib>` in scope the integer version would be chosen).

## 5. Observations in the source that are not theorems

* `savePLY` (mesh.cpp:519-522) asks whether the `std::ostream` has failed right after it is made; opening the `filebuf` does not set that state, so a file that cannot be opened is not reported (`saveOBJ` does report it).
* `loadPLY` ignores the result of `parse_header` and goes on after failed requests with null pointers (C96).
* `vertexIndices` of a PLY file: the warning for faces without half-edge (mesh.cpp:536) is unreachable.
* advancing front filling: `face_vs[i]->isLocked()` is tested twice instead of two vertices (core/completion.cpp:264); the list `boundary` is filled and not used; the vertices of the hole stay locked after the call; a straight corner whose sides have ratio 2 throws an exception.
* the first stage of completion (C89) can make a second edge between two corners of a hole that are already joined by an edge outside of the hole, since no cut of a corner looks for such an edge; the repair (C87) is proved only for meshes without such edges. A merge of two fronts also moves corners that were locked at completion.cpp:99-101.
* smoothing after the front: `newNormals[it->dst()]` for a vertex of the rim creates a zero vector (core/completion.cpp:559); the axis given to `rotationAxisAngle` is not normalised (599); the divergence has the opposite sign of the Laplacian on the left side and is divided by the number of neighbours (630); the test at 576 asks for the lock of the face, not of the vertex.
* restore/completion.cpp: the OpenMP loop at 281 uses `unordered_map::operator[]` (inserts, a race).
* denoiseL0Smooth: the vector `yNorm` is computed and never used; the edge operator is built anew in each round from positions that do not change.
* simplifyQEM: `setPos` remains when the collapse is rejected; locks are ignored. The flip test only looks at the two faces that the
  contraction removes (simplify.cpp:251 has the condition the wrong way round), so triangles that stay may be turned over
  (`c90_flipped_counterexample`). `collapseHE` may remove the end that has been moved, so the new place is lost
  (`c90_lost_counterexample`). `checked` is indexed by vertex indices, which change when a vertex is removed within the pass.
* restore/completion.cpp:602-612: `collapseFace` returns false if only one of its two collapses was made; the circulator then goes on from a half-edge that has been freed. The repair asks for no lock: original vertices are removed if they have more neighbours than the target.
* restore/completion.cpp:615-632: the table of signatures is keyed by pointers to vertices and entries of removed vertices are not erased, so that a new vertex at the address of a removed one would keep its signature; in the model addresses are not used twice.
* the exception for a division by zero is thrown inside OpenMP regions (filters/denoise.cpp:51-158, smooth.cpp:30-87); with OpenMP it ends the process, and the `catch` of the example programs does not see it.
* remesh: faces with a locked vertex are skipped as a whole; boundary vertices may be removed.
* UnionFindTree is not used; its function `same` would be wrong (C93).
* `flipHE` does not look at the boundary marks: next to a triangular hole it turns the hole and its neighbour into two faces with stale marks (C98).

## 6. Mutation testing

`seeded/LOG.jsonl` has one line per deliberate error in a model definition: the edit, the claim it breaks, the declarations whose proofs
failed, the property theorems that depend on them, and what was tightened if a claim was not protected. The edits are made in a scratch copy.

## 7. Axioms

`#print axioms` for every theorem in `MANIFEST.json`:

* propext, Classical.choice, Quot.sound: `c01_construct_consistent`, `c02_manifold_accepted`, `c02_closed_accepted`, `c02_closed_no_holes`, `c03_single_fan`, `c03_bowtie_reported`, `c04_defined_partial`, `c04_undefined_iff`, `c04_counterexample_triangle`, `c04_counterexample_unused`, `c05_degenerate_dropped_partial`, `c05_no_degenerate_left`, `c05_counterexample`, `c06_positions_merged`, `c07_report_partial`, `c07_counterexample`, `c07_report_any`, `c08_clone_partial`, `c08_counterexample`, `c09_obj_partial`, `c09_counterexample`, `c10_vertex_circulator`, `c10_face_circulator`, `c10_vertex_elements`, `c10_order`, `c10_prev`, `c10_flags`, `c100_construct`, `c100_edits`, `c100_report`, `c100_smooth`, `c100_fill`, `c100_remesh`, `c100_simplify`, `c100_queue`, `c101_split`, `c101_flip`, `c101_collapse`, `c102_split`, `c102_split_loop`, `c102_flip_volume`, `c102_flip_flat`, `c102_collapse`, `c103_edges`, `c103_boundary`, `c103_degree`, `c103_faces`, `c103_counts`, `c103_pieces`, `c103_manifold`, `c104_load`, `c104_save`, `c104_round_trip`, `c105_stretch`, `c105_step`, `c105_moves`, `c106_anchored`, `c106_free`, `c106_free_triangles`, `c107_taubin`, `c107_equal`, `c107_default`, `c107_tetrahedron`, `c108_safe`, `c108_built`, `c108_exact`, `c108_close`, `c108_flip_needed`, `c109_fairing`, `c109_l0`, `c109_l0_ends`, `c109_normals`, `c109_hole`, `c109_safe`, `c11_counts`, `c110_loop`, `c110_loop_exact`, `c110_safe`, `c110_triangles`, `c110_exact`, `c110_few_faces`, `c110_enough_faces`, `c110_l0_ends`, `c110_front`, `c110_front_outcome`, `c110_front_three`, `c111_safe`, `c111_index`, `c111_exact`, `c111_collapsed`, `c111_filled`, `c111_collect`, `c111_collect_exact`, `c111_default_curvature`, `c112_load`, `c112_empty`, `c112_triangle`, `c112_works`, `c112_works_exact`, `c112_normals`, `c112_filled`, `c112_simplify`, `c112_laplacian`, `c112_signatures`, `c112_curvatures`, `c112_closest`, `c112_blind`, `c113_sizes`, `c113_normal`, `c114_construct`, `c114_edits`, `c114_report`, `c114_smooth`, `c114_fill`, `c114_remesh`, `c115_cot_partial`, `c115_cot_false`, `c115_belkin_false`, `c115_simplify_false`, `c116_flip`, `c116_split`, `c117_message`, `c117_no_text`, `c117_pieces`, `c118_rounds`, `c118_whole`, `c118_locked`, `c118_idle`, `c12_split`, `c12_split_iff`, `c120_rim`, `c120_ready`, `c120_complete`, `c120_chords`, `c120_programs`, `c120_exact`, `c13_flip`, `c13_flip_iff`, `c14_counterexample`, `c14_flip_any_partial`, `c15_collapse`, `c15_collapse_keeps`, `c16_rejected_partial`, `c16_counterexample`, `c17_indices`, `c18_no_failure`, `c18_nan_abort`, `c19_euler`, `c20_verify`, `c20_verify_exact`, `c21_fill`, `c21_fill_exact`, `c21_face`, `c21_face_exact`, `c21_again`, `c22_flags_partial`, `c22_stale`, `c22_counterexample`, `c23_remesh`, `c23_reject`, `c23_exact`, `c24_locked`, `c24_feature`, `c24_feature_iff`, `c25_faces`, `c26_terminates`, `c26_exact`, `c27_laplacian`, `c27_taubin`, `c28_laplacian_loops`, `c28_taubin_loops`, `c28_denoise_loops`, `c28_laplacian`, `c28_taubin`, `c28_denoise`, `c29_laplacian_formula`, `c29_taubin_formula`, `c29_convex`, `c29_box`, `c29_affine`, `c29_taubin_affine`, `c29_step_needed`, `c30_adjacent`, `c30_cotangent`, `c30_belkin`, `c30_other`, `c31_closest_in_triangle`, `c31_distance`, `c32_counterexample`, `c32_counterexample_corner`, `c32_nearest_partial`, `c33_query_any_tree`, `c33_query_built`, `c34_build`, `c34_reads`, `c35_merge`, `c35_merge_point`, `c35_merge_laws`, `c35_default`, `c35_inside`, `c35_distance`, `c35_max_extent`, `c35_area`, `c36_symmetric_partial`, `c36_counterexample`, `c37_principal_partial`, `c37_umbilic`, `c38_directions_partial`, `c38_counterexample`, `c39_rotation_partial`, `c39_close`, `c39_parallel`, `c39_counterexample`, `c40_corners`, `c40_face`, `c40_not_corner`, `c41_dihedral`, `c42_weight_partial`, `c42_counterexample`, `c43_fairing_counterexample`, `c43_denoise_counterexample`, `c43_l0_counterexample`, `c43_denoise_partial`, `c43_fairing_partial`, `c43_l0_partial`, `c44_progress_partial`, `c44_counterexample`, `c44_instant`, `c45_save_load_partial`, `c46_counterexample`, `c46_clone_exact`, `c46_boundary_partial`, `c46_closed_partial`, `c47_vector_laws_partial`, `c47_division_reported`, `c47_normalize`, `c47_division_vector`, `c47_counterexample`, `c48_signature_partial`, `c48_counterexample`, `c49_post_increment_partial`, `c49_counterexample`, `c50_constructor`, `c50_components_partial`, `c51_edge_length`, `c51_dihedral`, `c51_choice`, `c51_face_area_partial`, `c51_area_counterexample`, `c52_boundary`, `c53_candidates`, `c54_locked_partial`, `c54_counterexample`, `c55_simple_partial`, `c55_counterexample`, `c56_step`, `c56_unique`, `c56_halfspace`, `c56_isometry`, `c57_gaussian`, `c57_bilateral`, `c57_bound`, `c57_flat`, `c57_similar`, `c57_abort`, `c58_operator`, `c58_result`, `c58_rounds`, `c58_rounds_default`, `c58_diverges`, `c58_skip`, `c58_plane`, `c58_isometry`, `c59_normal`, `c59_sphere`, `c59_plane`, `c60_defect`, `c60_gauss_bonnet`, `c61_formula`, `c61_plane`, `c61_sphere_partial`, `c61_mean_counterexample`, `c62_face`, `c62_exact`, `c62_derivative`, `c63_tensor`, `c63_sphere_partial`, `c63_counterexample`, `c64_holes`, `c65_accept`, `c65_complete`, `c65_noflip_partial`, `c65_counterexample`, `c66_collapse_face`, `c66_counts`, `c67_edge`, `c67_marks`, `c67_field`, `c67_half`, `c68_unit_partial`, `c68_no_lines`, `c68_counterexample`, `c69_rounds`, `c69_curvatures`, `c70_radius_partial`, `c70_mesh_partial`, `c70_counterexample`, `c71_motion`, `c71_none`, `c72_error_partial`, `c72_choice_partial`, `c72_counterexample`, `c73_descriptor_partial`, `c73_whole_partial`, `c73_counterexample`, `c74_candidates_partial`, `c74_counterexample`, `c75_filled_partial`, `c75_outcome`, `c75_triangle`, `c75_throws`, `c75_fold_throws`, `c76_run`, `c76_round`, `c77_still_partial`, `c77_moves_and_marks`, `c78_distance`, `c78_bisector_partial`, `c78_not_bisector`, `c78_wrong_side`, `c79_inside`, `c79_filled`, `c79_outcome`, `c79_triangle`, `c80_normals_partial`, `c80_rim_ignored`, `c81_turn_partial`, `c81_only_if`, `c82_positions_partial`, `c82_flat`, `c82_wrong_sign`, `c82_not_flat`, `c82_quarter`, `c83_faces`, `c83_verts`, `c83_sides`, `c83_star`, `c84_dissim`, `c84_none`, `c84_tree`, `c85_positions`, `c86_split`, `c86_collapse`, `c86_no_long_partial`, `c86_long_counterexample`, `c86_flip`, `c86_flips`, `c86_limits`, `c87_split`, `c87_flip_step`, `c87_flip`, `c87_thin_step`, `c87_thin`, `c87_small_step`, `c87_repair_partial`, `c87_ub_counterexample`, `c87_locked_counterexample`, `c88_update`, `c88_nan`, `c89_closed`, `c89_outcome`, `c89_three`, `c90_allowed`, `c90_step`, `c90_skip`, `c90_place_partial`, `c90_flip`, `c90_flips`, `c90_lost_counterexample`, `c90_flipped_counterexample`, `c91_smooth`, `c91_range`, `c91_derivatives_partial`, `c91_exchanged`, `c91_counterexample`, `c92_nodes`, `c92_order`, `c92_cheapest`, `c92_twin`, `c92_covered`, `c93_root_partial`, `c93_same_partial`, `c94_text`, `c94_load_partial`, `c94_counterexample`, `c95_table`, `c95_pairs`, `c95_construct`, `c95_needed`, `c96_load_partial`, `c96_wrap_counterexample`, `c96_save`, `c96_save_load_partial`, `c97_edits`, `c97_remesh`, `c97_simplify`, `c97_fill`, `c98_remesh`, `c98_simplify`, `c98_edits`, `c98_edits_needed`, `c99_sizes`, `c99_laplacian`, `c99_vertex`, `c99_curvature`

* propext, Quot.sound: `c111_default`, `c117_format`, `c117_stream`, `c117_session`, `c117_assertion`, `c119_const`, `c119_between`, `c119_order`, `c26_zero`, `c26_overflow`, `c27_taubin_overflow`, `c48_errors`, `c93_range`, `c96_types`, `c96_double`

* none: `c50_counterexample`

* propext: `c93_counterexample`, `c94_unique`
