import Verif.Model.Bvh
import Verif.Model.IO
/-
`BVH(const Mesh&)` (bvh.cpp:53-55) and the functions of src/tinymesh/ops/metrics.cpp on meshes.
-/
namespace TinyMesh
variable {F : Type}

/-- The positions and the corner list of a mesh, as passed to the `BVH` constructor (bvh.cpp:53-55). The loop of
`getPerVertexShortestDistances` (metrics.cpp:26-29) reads the same positions in the same order. -/
def soupOf [Scalar F] (m : Mesh F) : Except Err (Soup F) :=
  match getVertices m with
  | .err e => .error e
  | .ok V _ =>
    match getVertexIndices m with
    | .err e => .error e
    | .ok I _ => .ok ⟨V, flatIdx I⟩

/-- `getHausdorffDistance`, metrics.cpp:12-19 -/
def meshHausdorff [ScalarX F] (lib : Lib F) (a b : Mesh F) : Except Err F := do
  let sa ← soupOf a
  let sb ← soupOf b
  hausdorff lib sa sb

end TinyMesh
