import Verif.Model.IO
/-
The numbers of a PLY file: the part of `Mesh::loadPLY` after the file has been read (mesh.cpp:446-467) and the part of `Mesh::savePLY` before it is
written (mesh.cpp:521-555).

tinyply hands out the requested properties of an element as a number of elements and the bytes of all values, one element after the other; `stride`
is the number of bytes of a value, which depends on the type that the header of the file names (1, 2, 4 or 8). If the element or a property is missing
the request throws an exception; the code prints its text and goes on with a null pointer (mesh.cpp:421-444). The header, the parser and the writer of
tinyply are not modelled, and neither are lists that do not have three entries. Bytes are in the order of little-endian machines. `dec` turns the bits
of a `float` into a `double`, `enc` is the conversion of a `double` to a `float`.
-/
namespace TinyMesh
variable {F : Type} [Scalar F]

/-- a byte of `PlyData::buffer`, mesh.cpp:452, 456 -/
abbrev Byte := BitVec 8

/-- `tinyply::PlyData`, mesh.cpp:421-444 -/
structure PlyData where
  count : Nat
  stride : Nat
  bytes : List Byte
  deriving DecidableEq

/-- the bytes of a `float` or a `uint32_t` in memory, mesh.cpp:450-456, 520-555 -/
def bytesOf (w : BitVec 32) : List Byte :=
  [w.extractLsb' 0 8, w.extractLsb' 8 8, w.extractLsb' 16 8, w.extractLsb' 24 8]

/-- an array of `float` or `uint32_t` whose memory holds these bytes, mesh.cpp:450-456 -/
def wordsOf : List Byte → List (BitVec 32)
  | a :: b :: c :: d :: r => (d ++ c ++ b ++ a) :: wordsOf r
  | _ => []

/-- `vert_data->...` and `face_data->...`: a null pointer is undefined behaviour, mesh.cpp:450, 454 -/
def derefPly : Option PlyData → M F PlyData
  | none => M.fail .ub
  | some d => pure d

/-- `std::memcpy` of `sizeof(float) * count * 3` bytes, mesh.cpp:452 and 456: undefined behaviour if the buffer is shorter -/
def copyWords (d : PlyData) : M F (List (BitVec 32)) :=
  if d.bytes.length < 4 * (d.count * 3) then M.fail .ub else pure (wordsOf (d.bytes.take (4 * (d.count * 3))))

/-- `Vec3(raw_vertices[i * 3 + 0], raw_vertices[i * 3 + 1], raw_vertices[i * 3 + 2])`, mesh.cpp:461: the arithmetic is that of `uint32_t` -/
def plyPos (V : List F) (i : BitVec 32) : Option (Vec3 F) :=
  match V[(i * 3).toNat]?, V[(i * 3 + 1).toNat]?, V[(i * 3 + 2).toNat]? with
  | some x, some y, some z => some ⟨x, y, z⟩
  | _, _, _ => none

/-- the loop mesh.cpp:460-467, see `dedupLoop` -/
def plyLoop (V : List F) : List (BitVec 32) → List (Vec3 F × Nat) → M F Unit
  | [], _ => pure ()
  | i :: rest, tbl =>
    match plyPos V i with
    | none => M.fail .ub
    | some p => do
      let n ← M.read (fun m => m.vs.length)
      let tbl1 := match lookupPos tbl p with
        | some _ => tbl
        | none => tbl ++ [(p, n)]
      if (lookupPos tbl p).isNone then
        let v ← newVertex p
        pushVertex v
      let tbl2 := match lookupPos tbl1 p with
        | some _ => tbl1
        | none => tbl1 ++ [(p, 0)]
      let k := match lookupPos tbl1 p with
        | some k => k
        | none => 0
      pushIndex k
      plyLoop V rest tbl2

/-- `load` of a PLY file (mesh.cpp:69-86) with what tinyply hands out for the coordinates and the triangles, mesh.cpp:446-467 -/
def loadPlyData (dec : BitVec 32 → F) (vd fd : Option PlyData) : M F Unit := do
  clearArrays
  let v ← derefPly vd
  let V ← copyWords v
  let f ← derefPly fd
  let I ← copyWords f
  plyLoop (V.map dec) I []
  construct0

/-- `savePLY`, mesh.cpp:509-560: the coordinates and triangles that are handed to tinyply. `int` indices become `uint32_t`. -/
def savePlyData (enc : F → BitVec 32) : M F (PlyData × PlyData) := do
  let V ← getVertices
  let I ← getVertexIndices
  pure (⟨V.length, 4, (V.flatMap fun p => [enc p.x, enc p.y, enc p.z]).flatMap bytesOf⟩,
    ⟨I.length, 4, (I.flatMap fun t => [BitVec.ofInt 32 t.1, BitVec.ofInt 32 t.2.1, BitVec.ofInt 32 t.2.2]).flatMap bytesOf⟩)

end TinyMesh
