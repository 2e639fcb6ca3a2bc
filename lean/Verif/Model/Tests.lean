import Verif.Model.Works
import Verif.Model.Fill
import Verif.Model.Metrics
import Verif.Model.Feature
import Verif.Model.Curv
/-
`Face::toTriangle`, and what the tests of the library do with a mesh after they have loaded it.
-/
namespace TinyMesh
variable {F : Type} [ScalarX F]

/-- `Face::toTriangle`, core/face.cpp:23-32. The assertion demands three corners. -/
def toTriangle (f : Nat) : M F (Triangle F) := do
  let vs ← faceVerts f
  let ps ← getPosList vs
  match ps with
  | [a, b, c] => pure ⟨a, b, c⟩
  | _ => M.fail .abort

/-- the loop over the vertices, tests/test_mesh.cpp:36-39; the result says whether all expectations are met -/
def checkDegrees : List Nat → M F Bool
  | [] => pure true
  | i :: is => do
    let v ← vertexAt (i : Int)
    let d ← degree v
    let r ← checkDegrees is
    return (decide (0 < d) && r)

/-- The test `MeshLoad` after the mesh has been loaded, tests/test_mesh.cpp:29-40; the result says whether it passes. -/
def checkLoaded : M F Bool := do
  let ok ← verify
  if ok then do
    let nv ← M.read (fun m => m.vs.length)
    let nf ← M.read (fun m => m.fs.length)
    let ne ← numEdges
    let nh ← M.read (fun m => m.hes.length)
    let ds ← checkDegrees (List.range nv)
    return (decide (0 < nv) && decide (0 < nf) && decide (0 < ne) && decide (0 < nh) && ds)
  else pure false

/-- the loop over the faces, tests/test_mesh.cpp:53-59 -/
def nearestLoop (q : Vec3 F) : List Nat → F → M F F
  | [], answer => pure answer
  | i :: is, answer => do
    let f ← faceAt (i : Int)
    let t ← toTriangle f
    let d := t.distance q
    nearestLoop q is (if Scalar.lt d answer then d else answer)

/-- `BVH bvh(mesh)` and `bvh.distance(query)`, core/bvh.cpp:53-55, 76-79 -/
def bvhOfMesh (lib : Lib F) (q : Vec3 F) (m : Mesh F) : Except Err F := do
  let s ← soupOf m
  let b ← bvhConstruct lib s.pos s.idx
  bvhDistance b q

/-- `EXPECT_NEAR(a, b, 1.0e-5)`, tests/test_mesh.cpp:63 -/
def expectNear (a b : F) : Bool := Scalar.le (ScalarX.abs (a - b)) (Scalar.lit 1 (10 ^ 5))

/-- the tree, its query and the comparison with `answer`, tests/test_mesh.cpp:61-63 -/
def compareTree (lib : Lib F) (q : Vec3 F) (answer : F) : M F Bool := fun m =>
  match bvhOfMesh lib q m with
  | .ok d => .ok (expectNear d answer) m
  | .error e => .err e

/-- The test `MeshClosetPoint` after the mesh has been loaded, tests/test_mesh.cpp:50-63, for the random query `q`; the result says whether it
passes. -/
def checkClosest (lib : Lib F) (q : Vec3 F) : M F Bool := do
  fillHoles
  let n ← M.read (fun m => m.fs.length)
  let answer ← nearestLoop q (List.range n) (Scalar.lit (10 ^ 20) 1)
  compareTree lib q answer

/-- The test `HoleFill` after the mesh has been loaded, tests/test_remesh.cpp:24-27; the result says whether it passes. -/
def checkFilled : M F Bool := do
  fillHoles
  verify

/-- The tests `SimplifyQEMOneHalf` (`part = 2`) and `SimplifyQEMOneTenth` (`part = 10`) after the mesh has been loaded,
tests/test_remesh.cpp:34-42; the number of trials is the default of remesh/remesh.h:21. -/
def testSimplify (S : Solver F) (ord : Nat → List (Nat × Vec3 F) → List (Nat × Vec3 F)) (part : Nat) : M F Unit := do
  fillHoles
  let n ← M.read (fun m => m.fs.length)
  simplifyQEM S ord (n / part : Nat) 10

/-- A test that fills the holes and calls one function: the tests of filters, tests/test_filters.cpp:19-51, and `RemeshTriangular`,
tests/test_remesh.cpp:29-32. -/
def testWork (w : Work F) : M F Unit := do
  fillHoles
  w.run

/-- The test `GetLaplacian`, tests/test_ops.cpp:19-31. -/
def testLaplacian : M F Unit := do
  fillHoles
  let _ ← meshLaplacian .adjacent
  let _ ← meshLaplacian .cotangent
  let _ ← meshLaplacian .belkin08
  pure ()

/-- `ASSERT_NO_FATAL_FAILURE` around a function that changes nothing and gives a result or an error, tests/test_ops.cpp:38 -/
def noFailure {α : Type} (r : Except Err α) : M F Unit := fun m =>
  match r with
  | .ok _ => .ok () m
  | .error e => .err e

/-- The test `GetHeatKernelSignatures`, tests/test_ops.cpp:19-22, 35-39; `eig` stands for the eigenvalue solver, which is given the size of the
matrix, the matrix and the number of eigenvalues. The number of times is the default of ops/ops.h:42. -/
def testSignatures (eig : Nat → (Nat → Nat → F) → Nat → Option (Eigs F)) : M F Unit := do
  fillHoles
  let L ← meshLaplacian .cotangent
  let n ← M.read (fun m => m.vs.length)
  noFailure (hks n (min n 200) 100 (eig n L (min n 200)))

/-- The tests `GetPrincipalCurvatures` and `GetPrincipalCurvaturesWithDerivatives`, tests/test_ops.cpp:19-22, 41-47, one after the other on the
same mesh (neither of the functions changes it). -/
def testCurvatures (solve : LinSolve F) : M F Unit := do
  fillHoles
  let _ ← principalCurvatures solve false
  let _ ← principalDerivatives solve false
  pure ()

end TinyMesh
