import Verif.Spec.Remesh
import Verif.Spec.Smooth
/-
What simplification must preserve.
-/
namespace TinyMesh
variable {F : Type}

/-- the boundary vertices of `m` are still there, still at the boundary and in their place -/
def KeepsBoundary (m m' : Mesh F) : Prop :=
  ∀ v, m.vAlive v = true → m.AtBoundary v → m'.vAlive v = true ∧ m'.AtBoundary v ∧ m'.vPos v = m.vPos v

/-- `m'` has the numbers of elements that `k` edge contractions leave: each takes one vertex, three edges and two faces -/
structure Contracted (k : Nat) (m m' : Mesh F) : Prop where
  fs : m'.fs.length + 2 * k = m.fs.length
  vs : m'.vs.length + k = m.vs.length
  hes : m'.hes.length + 6 * k = m.hes.length

end TinyMesh
