import Verif.Model.Remesh
import Verif.Model.Simplify
/-
Programs that work on a mesh with the public functions of the library.
-/
namespace TinyMesh
variable {F : Type} [Scalar F]

/-- A call of a public function that changes a mesh: the edits of mesh.h:40-42 with `mesh.halfedge(i)` (mesh.h:57-60) as argument,
`lock`, `unlock` and `setPos` of `mesh.vertex(i)` (mesh.h:52-55, vertex.h:76-78, 90-96), the filters `smoothLaplacian` and `smoothTaubin`
(filters/smooth.cpp:23-99), `remeshTriangular` (remesh/remesh.cpp:19-199) and `simplifyQEM` (remesh/simplify.cpp:115-371). What a run takes from
outside, the order of a shuffle, of a queue, and the linear solver, is part of the call. -/
inductive Call (F : Type) where
  | split (i : Int)
  | collapse (i : Int)
  | flip (i : Int)
  | lock (i : Int) (b : Bool)
  | place (i : Int) (x : Vec3 F)
  | laplacian (eps : F) (cotan : Bool) (n : Nat)
  | taubin (shrink inflate : F) (n : Nat)
  | remesh (sh : Nat → Bool → Nat → List Nat) (short long keep : F) (n : Nat)
  | simplify (S : Solver F) (ord : Nat → List (Nat × Vec3 F) → List (Nat × Vec3 F)) (target trials : Int)

/-- What the call does; the result of an edit is ignored. See mesh.h:40-42, 52-60, vertex.h:76-78, 90-96, filters/smooth.cpp:23-99,
remesh/remesh.cpp:19-199, remesh/simplify.cpp:115-371. -/
def Call.run : Call F → M F Unit
  | .split i => do
    let h ← halfedgeAt i
    let _ ← splitHE h
    pure ()
  | .collapse i => do
    let h ← halfedgeAt i
    let _ ← collapseHE h
    pure ()
  | .flip i => do
    let h ← halfedgeAt i
    let _ ← flipHE h
    pure ()
  | .lock i b => do
    let v ← vertexAt i
    setLock v b
  | .place i x => do
    let v ← vertexAt i
    setPos v x
  | .laplacian eps cotan n => smoothLaplacian eps cotan n
  | .taubin shrink inflate n => smoothTaubin shrink inflate n
  | .remesh sh short long keep n => TinyMesh.remesh sh short long keep n
  | .simplify S ord target trials => simplifyQEM S ord target trials

/-- A client that makes the calls one after the other. See a client of mesh.h:40-65, filters/filters.h and remesh/remesh.h. -/
def runCalls : List (Call F) → M F Unit
  | [] => pure ()
  | c :: cs => do
    c.run
    runCalls cs

end TinyMesh
