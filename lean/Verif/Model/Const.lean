import Verif.Model.Context
import Verif.Model.Tests
import Verif.Model.Text
/-
The functions of the library that are given a constant object.
-/
namespace TinyMesh

/-- The constant member functions of `Vertex` (core/vertex.h:35-88), `Face` (core/face.h:36-65), `Halfedge` (core/halfedge.h:24-59) and `Mesh`
(core/mesh.h:33-89), and the functions of ops/ops.h:20-67 for a `const Mesh &`, by the type of their result. Elements are given by their addresses.
What is taken from libraries is an argument: solvers, the conversion of a position to the numbers in the file, the digits of a number, whether the
file could be opened. Left out are the functions that are modelled as functions of the mesh itself: `BVH`, the distances of ops/metrics.cpp and
the signatures of a matrix. The constness of `Mesh` does not extend to its elements: `vertex(int) const` returns a `Vertex *` (mesh.h:52-65). -/
inductive Query (F : Type) : Type → Type 1
  -- vertex.h
  | pos (v : Nat) : Query F (Vec3 F)
  | vIndex (v : Nat) : Query F Int
  | vLocked (v : Nat) : Query F Bool
  | degree (v : Nat) : Query F Nat
  | vNormal (v : Nat) : Query F (Vec3 F)
  | vorArea (v : Nat) : Query F F
  | vorFace (v f : Nat) : Query F F
  | K (v : Nat) : Query F F
  | H (v : Nat) : Query F F
  | vBoundary (v : Nat) : Query F Bool
  | vVerts (v : Nat) : Query F (List Nat)
  | vFaces (v : Nat) : Query F (List Nat)
  | vHalfedges (v : Nat) : Query F (List Nat)
  -- face.h
  | fIndex (f : Nat) : Query F Int
  | fNormal (f : Nat) : Query F (Vec3 F)
  | area (f : Nat) : Query F F
  | corners (f : Nat) : Query F Nat
  | hole (f : Nat) : Query F Bool
  | fBoundary (f : Nat) : Query F Bool
  | fLocked (f : Nat) : Query F Bool
  | triangle (f : Nat) : Query F (Triangle F)
  | fVerts (f : Nat) : Query F (List Nat)
  | fFaces (f : Nat) : Query F (List Nat)
  | fHalfedges (f : Nat) : Query F (List Nat)
  -- halfedge.h
  | length (h : Nat) : Query F F
  | cot (h : Nat) : Query F F
  | src (h : Nat) : Query F Nat
  | dst (h : Nat) : Query F Nat
  | next (h : Nat) : Query F Nat
  | prev (h : Nat) : Query F Nat
  | rev (h : Nat) : Query F Nat
  | face (h : Nat) : Query F Nat
  | hIndex (h : Nat) : Query F Int
  | hBoundary (h : Nat) : Query F Bool
  -- mesh.h
  | saveOBJ (round : Vec3 F → Vec3 F) : Query F (MeshFile F)
  | savePLY (round : Vec3 F → Vec3 F) : Query F (MeshFile F)
  | saveText (fmt : F → List Char) (opened : Bool) : Query F (List Char)
  | vertices : Query F (List (Vec3 F))
  | indices : Query F (List (Int × Int × Int))
  | meanLength : Query F F
  | meanAngle : Query F F
  | meanArea : Query F F
  | verify : Query F Bool
  | vertexAt (i : Int) : Query F Nat
  | halfedgeAt (i : Int) : Query F Nat
  | faceAt (i : Int) : Query F Nat
  | edges : Query F Nat
  -- ops.h
  | laplacian (t : LaplaceType) : Query F (Nat → Nat → F)
  | tensors (solve : LinSolve F) : Query F (List (Mat2 F × LFrame F))
  | curvatures (solve : LinSolve F) (smooth : Bool) : Query F (List (Principal F))
  | derivatives (solve : LinSolve F) (smooth : Bool) : Query F (List (Principal F) × List (F × F))
  | lines (solve solve' : LinSolve F) (smooth : Bool) : Query F (List (Vec3 F × F))
  | field (solve solve' : LinSolve F) (smooth : Bool) : Query F (List (Vec3 F))

/-- the function of the library behind a query, core/vertex.h:35-88, core/face.h:36-65, core/halfedge.h:24-59, core/mesh.h:33-89, ops/ops.h:20-67 -/
def Query.run {F : Type} [ScalarX F] : {α : Type} → Query F α → M F α
  | _, .pos v => getPos v
  | _, .vIndex v => getVIdx v
  | _, .vLocked v => getLock v
  | _, .degree v => TinyMesh.degree v
  | _, .vNormal v => vertNormal v
  | _, .vorArea v => TinyMesh.vorArea v
  | _, .vorFace v f => TinyMesh.vorFace v f
  | _, .K v => gaussK v
  | _, .H v => meanH v
  | _, .vBoundary v => vIsBoundary v
  | _, .vVerts v => ringVerts v
  | _, .vFaces v => vertFaces v
  | _, .vHalfedges v => ringList v
  | _, .fIndex f => getFIdx f
  | _, .fNormal f => faceNormal f
  | _, .area f => faceArea f
  | _, .corners f => numCorners f
  | _, .hole f => fIsHole f
  | _, .fBoundary f => fIsBoundary f
  | _, .fLocked f => fIsLocked f
  | _, .triangle f => toTriangle f
  | _, .fVerts f => faceVerts f
  | _, .fFaces f => faceFaces f
  | _, .fHalfedges f => faceList f
  | _, .length h => heLength h
  | _, .cot h => cotWeight h
  | _, .src h => getSrc h
  | _, .dst h => getDst h
  | _, .next h => getNext h
  | _, .prev h => getPrev h
  | _, .rev h => getRev h
  | _, .face h => getFace h
  | _, .hIndex h => getHIdx h
  | _, .hBoundary h => getBd h
  | _, .saveOBJ r => TinyMesh.saveOBJ r
  | _, .savePLY r => TinyMesh.savePLY r
  | _, .saveText fmt o => TinyMesh.saveText fmt o
  | _, .vertices => getVertices
  | _, .indices => getVertexIndices
  | _, .meanLength => meanEdgeLength
  | _, .meanAngle => meanDihedralAngle
  | _, .meanArea => meanFaceArea
  | _, .verify => TinyMesh.verify
  | _, .vertexAt i => TinyMesh.vertexAt i
  | _, .halfedgeAt i => TinyMesh.halfedgeAt i
  | _, .faceAt i => TinyMesh.faceAt i
  | _, .edges => numEdges
  | _, .laplacian t => meshLaplacian t
  | _, .tensors s => curvatureTensors s
  | _, .curvatures s b => principalCurvatures s b
  | _, .derivatives s b => principalDerivatives s b
  | _, .lines s s' b => featureLines s s' b
  | _, .field s s' b => featureField s s' b

end TinyMesh
