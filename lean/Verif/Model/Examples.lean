import Verif.Model.Works
import Verif.Model.Fill
import Verif.Model.Context
/-
The example programs, between loading a mesh and saving it.
-/
namespace TinyMesh
variable {F : Type} [ScalarX F]

/-- The loop over all faces, examples/cpp/example_hole_fill.cpp:23-28: `mesh.numFaces()` is evaluated before every step. `fuel` bounds the
number of tests of the loop; the outcome `diverge` means that it has not ended by then. -/
def fillEach (bound : F) : Nat → Nat → M F Unit
  | 0, _ => M.fail .diverge
  | fuel + 1, i => do
    let n ← M.read (fun m => m.fs.length)
    if i < n then do
      let f ← faceAt (i : Int)
      let b ← fIsHole f
      if b then holeFillMinDihedral f bound else pure ()
      fillEach bound fuel (i + 1)
    else pure ()

/-- The first part of examples/cpp/example_hole_fill.cpp:21-28, with the angle `Pi / 6.0`. -/
def exHoleFill (fuel : Nat) : M F Unit := fillEach (Scalar.pi / Scalar.lit 6 1) fuel 0

/-- The second part of examples/cpp/example_hole_fill.cpp:36-43. Its loop over all faces is the one of restore/completion.cpp:105-110, but no
vertex is locked before and no flag is cleared after it. The variable `holeFaces` is not used. `ord` is the order in which sets of pointers are
visited, `fuel` bounds the faces visited and the rounds of each front. -/
def exFrontFill (ord : List Nat → List Nat) (solve : LinSolve F) (fuel : Nat) : M F Unit := cohFill ord solve fuel fuel 0

/-- The loop that moves every vertex, examples/cpp/example_denoise.cpp:37-41; `noise i` are the three random numbers drawn for the vertex `i`. -/
def addNoise (noise : Nat → Vec3 F) (len : F) : List Nat → M F Unit
  | [] => pure ()
  | i :: is => do
    let v ← vertexAt (i : Int)
    let p ← getPos v
    let v ← vertexAt (i : Int)
    setPos v (p.add (Vec3.smul len (noise i)))
    addNoise noise len is

/-- The parts of the example programs that fill the holes of a mesh and work on it. What a run takes from outside is part of the program: the
linear solvers, the order of shuffles, of a queue and of a hash set, the random numbers, the conversion of a number to `int` (`none` stands
for undefined behaviour), the bound `fuel` on the loop of `denoiseL0Smooth`, and the numbers read from the command line. See
examples/cpp/example_remesh.cpp:18-20, example_simplify.cpp:22-25, example_smooth.cpp:23-24, 33-34, 43-44,
example_denoise.cpp:33-41, 49-50, 61-62, 73-74. -/
inductive Example (F : Type) where
  | remesh (sh : Nat → Bool → Nat → List Nat) (keep : F)
  | simplify (S : Solver F) (ord : Nat → List (Nat × Vec3 F) → List (Nat × Vec3 F)) (sh : Nat → Bool → Nat → List Nat)
      (toInt : F → Option Int) (ratio : F)
  | laplacian
  | taubin
  | fairing (solve : LinSolve F)
  | noise (draw : Nat → Vec3 F)
  | gaussian (sigma : F)
  | bilateral (sigma : F)
  | l0 (solve : LinSolve F) (order : List Nat → List Nat) (fuel : Nat)

/-- What the program does between loading and saving. The arguments that the programs leave out have the default values of
remesh/remesh.h:15-16 and filters/filters.h:42. See examples/cpp/example_remesh.cpp:18-20, example_simplify.cpp:22-25,
example_smooth.cpp:23-24, 33-34, 43-44, example_denoise.cpp:33-41, 49-50, 61-62, 73-74. Progress reports are left out. -/
def Example.run : Example F → M F Unit
  | .remesh sh keep => do
    fillHoles
    TinyMesh.remesh sh (Scalar.lit 8 10) (Scalar.lit 1333 1000) keep 5
  | .simplify S ord sh toInt ratio => do
    let n ← M.read (fun m => m.fs.length)
    match toInt (ratio * Scalar.lit n 1) with
    | none => M.fail .ub
    | some target => do
      fillHoles
      simplifyQEM S ord target 10
      TinyMesh.remesh sh (Scalar.lit 0 1) (Scalar.lit 1000000 1) (Scalar.lit 0 1) 5
  | .laplacian => do
    fillHoles
    smoothLaplacian (Scalar.lit 1 2) true 100
  | .taubin => do
    fillHoles
    smoothTaubin (Scalar.lit 1 2) (Scalar.lit 53 100) 100
  | .fairing solve => do
    fillHoles
    implicitFairing solve (Scalar.lit 1 100) 1
  | .noise draw => do
    fillHoles
    let len ← meanEdgeLength
    let n ← M.read (fun m => m.vs.length)
    addNoise draw len (List.range n)
  | .gaussian sigma => do
    fillHoles
    denoiseNormalGaussian sigma 10
  | .bilateral sigma => do
    fillHoles
    denoiseNormalBilateral sigma (Scalar.lit 1 10) 10
  | .l0 solve order fuel => do
    fillHoles
    denoiseL0Smooth solve order fuel (Scalar.lit 1 10) (Scalar.lit 1 1000)

end TinyMesh
