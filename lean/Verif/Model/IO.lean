import Verif.Model.Construct
/-
`Mesh::clone` (mesh.cpp:109-111), `load` (69-86), `loadOBJ` (367-404), `loadPLY` (406-468), `save`, `saveOBJ`, `savePLY`
(470-560).

Simplification: a file is the list of positions and the list of index triples that a parser reads from it.  The text and
binary formats (tinyobjloader, tinyply, iostreams) are not modelled; the loss of digits on writing is an arbitrary function
`round` on positions.
-/
namespace TinyMesh
variable {F : Type} [Scalar F]

/-- `int` values pushed into a `std::vector<uint32_t>`, three per face, mesh.cpp:128-133; the indices of a mesh are not
negative (a negative one would wrap around, which is not modelled) -/
def flatIdx : List (Int × Int × Int) → List Nat
  | [] => []
  | (a, b, c) :: l => a.toNat :: b.toNat :: c.toNat :: flatIdx l

/-- `Mesh::clone`, mesh.cpp:109-111: the state in the result is the new mesh object. `grow` is the growth policy of the
standard library, see `Mesh.empty`. -/
def clone (grow : Nat → Nat) (m : Mesh F) : Out F Unit :=
  match getVertices m with
  | .err e => .err e
  | .ok V _ =>
    match getVertexIndices m with
    | .err e => .err e
    | .ok I _ => construct V (flatIdx I) (Mesh.empty grow)

/-- the content of a mesh file, mesh.cpp:367-560 -/
structure MeshFile (F : Type) where
  pos : List (Vec3 F)
  idx : List Nat

/-- the triples that `saveOBJ` writes: all below the number of vertices, mesh.cpp:501-503 -/
def inFile (n : Nat) (t : Int × Int × Int) : Bool :=
  decide (t.1 < (n : Int)) && decide (t.2.1 < (n : Int)) && decide (t.2.2 < (n : Int))

/-- `saveOBJ`, mesh.cpp:482-507. The faces are visited like in `getVertexIndices`. -/
def saveOBJ (round : Vec3 F → Vec3 F) : M F (MeshFile F) := do
  let V ← getVertices
  let I ← getVertexIndices
  let n ← M.read (fun m => m.vs.length)
  pure ⟨V.map round, flatIdx (I.filter (inFile n))⟩

/-- `savePLY`, mesh.cpp:509-560. The faces are visited like in `getVertexIndices`; the warning for a face without
half-edge (536-539) comes after `isHole` has dereferenced the half-edge, so it is never reached. -/
def savePLY (round : Vec3 F → Vec3 F) : M F (MeshFile F) := do
  let V ← getVertices
  let I ← getVertexIndices
  pure ⟨V.map round, flatIdx I⟩

/-- `indices_.clear()`, mesh.cpp:385 -/
def clearIndices : M F Unit := fun m => .ok () { m with indices := [] }

/-- `load` of an OBJ file, mesh.cpp:69-86 and 367-404. -/
def loadOBJ (f : MeshFile F) : M F Unit := do
  clearArrays
  clearIndices
  dedupLoop f.pos f.idx []
  let idx ← M.read (fun m => m.indices)
  M.assert (idx.length % 3 == 0)
  construct0

/-- `load` of a PLY file, mesh.cpp:69-86 and 406-468: like `construct(vertices, indices)`. -/
def loadPLY (f : MeshFile F) : M F Unit := do
  clearArrays
  dedupLoop f.pos f.idx []
  construct0

end TinyMesh
