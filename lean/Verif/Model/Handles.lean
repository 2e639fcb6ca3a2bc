import Verif.Model.Works
import Verif.Model.Fill
import Verif.Model.Curv
/-
Programs that keep pointers to the vertices and faces of a mesh.
-/
namespace TinyMesh
variable {F : Type} [ScalarX F]

/-- A member function of `Vertex` that is called through a pointer: `pos`, `setPos`, `normal`, `K`, `H`, `isBoundary`, `isLocked`, and
`lock` or `unlock`, vertex.h:40-57, 73-96. Python scripts have the same functions, src/pybind11.cpp:72-82. -/
inductive VUse (F : Type) where
  | pos
  | place (x : Vec3 F)
  | normal
  | gauss
  | mean
  | boundary
  | locked
  | lock (b : Bool)

/-- What the call does; the value is not used. See vertex.h:73-78, 84-96, vertex.cpp:45-69, 149-233. -/
def VUse.run (v : Nat) : VUse F → M F Unit
  | .pos => do
    let _ ← getPos v
    pure ()
  | .place x => setPos v x
  | .normal => do
    let _ ← vertNormal v
    pure ()
  | .gauss => do
    let _ ← gaussK v
    pure ()
  | .mean => do
    let _ ← meanH v
    pure ()
  | .boundary => do
    let _ ← vIsBoundary v
    pure ()
  | .locked => do
    let _ ← getLock v
    pure ()
  | .lock b => setLock v b

/-- A member function of `Face` that is called through a pointer: `area`, `isBoundary`, `isHole`, `isLocked`, face.h:59-65,
src/pybind11.cpp:84-89. -/
inductive FUse where
  | area
  | boundary
  | hole
  | locked

/-- What the call does; the value is not used. See face.cpp:53-68, 78-104. -/
def FUse.run (f : Nat) : FUse → M F Unit
  | .area => do
    let _ ← faceArea (F := F) f
    pure ()
  | .boundary => do
    let _ ← fIsBoundary f
    pure ()
  | .hole => do
    let _ ← fIsHole f
    pure ()
  | .locked => do
    let _ ← fIsLocked f
    pure ()

/-- A step of a program: a call of a function that changes the mesh, `fillHoles` (mesh.cpp:934-947), `mesh.vertex(i)` or `mesh.face(i)`
(mesh.h:52-55, 62-65), whose value is kept, the use of a pointer, and `holeFillMinDihedral` (restore/completion.cpp:89-91) for a face to which
a pointer is kept. Pointers are numbered in the order in which they were taken. See src/pybind11.cpp:53-146. -/
inductive Step (F : Type) where
  | work (w : Work F)
  | fill
  | vertex (i : Int)
  | face (i : Int)
  | useV (k : Nat) (u : VUse F)
  | useF (k : Nat) (u : FUse)
  | fillFace (k : Nat) (bound : F)

/-- the pointers that the program keeps, src/pybind11.cpp:61-62 -/
structure Ptrs where
  vs : List Nat
  fs : List Nat

/-- What the step does. A pointer that has not been set is null. See src/pybind11.cpp:53-146, mesh.h:52-65, mesh.cpp:934-947,
restore/completion.cpp:89-91. -/
def Step.run (p : Ptrs) : Step F → M F Ptrs
  | .work w => do
    w.run
    pure p
  | .fill => do
    fillHoles
    pure p
  | .vertex i => do
    let v ← vertexAt i
    pure ⟨p.vs ++ [v], p.fs⟩
  | .face i => do
    let f ← faceAt i
    pure ⟨p.vs, p.fs ++ [f]⟩
  | .useV k u => do
    u.run (p.vs.getD k 0)
    pure p
  | .useF k u => do
    u.run (p.fs.getD k 0)
    pure p
  | .fillFace k bound => do
    holeFillMinDihedral (p.fs.getD k 0) bound
    pure p

/-- A program that makes the steps one after the other. See a client of src/pybind11.cpp:53-146. -/
def runSteps : Ptrs → List (Step F) → M F Ptrs
  | p, [] => pure p
  | p, s :: ss => do
    let p' ← s.run p
    runSteps p' ss

/-- A program that fills the faces of a list of pointers, each with its own bound. See restore/completion.cpp:89-91, src/pybind11.cpp:140-141. -/
def fillFaces : List (Nat × F) → M F Unit
  | [] => pure ()
  | q :: qs => do
    holeFillMinDihedral q.1 q.2
    fillFaces qs

end TinyMesh
