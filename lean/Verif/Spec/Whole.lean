import Verif.Spec.Repair
import Verif.Spec.Pieces
import Verif.Spec.Remesh
/-
What the iterations of the context coherent completion leave as it was.
-/
namespace TinyMesh
variable {F : Type}

/-- `m'` arises from the closed mesh `m` by moving and remeshing the part that is not locked -/
structure Mesh.Reworked (m m' : Mesh F) : Prop where
  /-- again a closed mesh of triangles without flags -/
  shut : m'.Shut
  /-- with as many pieces and handles as before -/
  euler : m'.euler2 = m.euler2
  pieces : SamePieces m m'
  /-- a locked vertex was locked before and is where it was -/
  still : ∀ v, m'.vAlive v = true → m'.vLock v = true → m.vAlive v = true ∧ m.vLock v = true ∧ m'.vPos v = m.vPos v
  /-- no vertex that is left has lost its lock -/
  lock : ∀ v, m.vAlive v = true → m'.vAlive v = true → m.vLock v = true → m'.vLock v = true

end TinyMesh
