import Verif.Model.Session
import Verif.Model.L0
/-
Programs that work on a mesh with all the filters of the library.
-/
namespace TinyMesh
variable {F : Type} [ScalarX F]

/-- A call of a public function that changes a mesh: one of `Call`, or one of the filters `implicitFairing` (filters/smooth.cpp:101-166),
`denoiseNormalGaussian`, `denoiseNormalBilateral` and `denoiseL0Smooth` (filters/denoise.cpp:38-314). What a run takes from outside, the
linear solver and the order of a hash set, is part of the call; `fuel` bounds the loop of `denoiseL0Smooth`. -/
inductive Work (F : Type) where
  | call (c : Call F)
  | fairing (solve : LinSolve F) (eps : F) (n : Nat)
  | gaussian (sigma : F) (n : Nat)
  | bilateral (sigmaCenter sigmaNormal : F) (n : Nat)
  | l0 (solve : LinSolve F) (order : List Nat → List Nat) (fuel : Nat) (alpha beta : F)

/-- What the call does. See filters/smooth.cpp:101-166, filters/denoise.cpp:38-314 and `Call.run`. -/
def Work.run : Work F → M F Unit
  | .call c => c.run
  | .fairing solve eps n => implicitFairing solve eps n
  | .gaussian sigma n => denoiseNormalGaussian sigma n
  | .bilateral sc sn n => denoiseNormalBilateral sc sn n
  | .l0 solve order fuel alpha beta => denoiseL0Smooth solve order fuel alpha beta

/-- A client that makes the calls one after the other. See a client of mesh.h:40-65, filters/filters.h and remesh/remesh.h. -/
def runWorks : List (Work F) → M F Unit
  | [] => pure ()
  | w :: ws => do
    w.run
    runWorks ws

end TinyMesh
