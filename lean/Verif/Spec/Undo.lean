import Verif.Spec.Surface
import Verif.Spec.Edit
/-
Meshes that do not differ but for the places where the triangles are stored.
-/
namespace TinyMesh
variable {F : Type}

/-- The arrays, positions, marks, edges and triangles of `m` are back in `m'`. A triangle may be another element of the array of faces
and begin at another corner. -/
structure Restored (m m' : Mesh F) : Prop where
  good : m'.Good
  hes : m'.hes = m.hes
  vs : m'.vs = m.vs
  fs : m'.fs = m.fs
  pos : m'.vPos = m.vPos
  lock : m'.vLock = m.vLock
  bd : m'.hBd = m.hBd
  edges : ∀ a b, m'.Joined a b ↔ m.Joined a b
  deg : ∀ v, m'.outDeg v = m.outDeg v
  tris : ∀ (A : Type) (φ : Nat → Nat → Nat → A), Cyclic φ → m'.triVals φ = m.triVals φ

end TinyMesh
