import Verif.Spec.Front
import Verif.Spec.Report
/-
What is left when all holes have been closed.
-/
namespace TinyMesh
variable {F : Type}

/-- a mesh of triangles and holes: no vertex appears twice on a hole, and no edge has holes on both sides -/
structure Mesh.Holed (m : Mesh F) : Prop where
  wf : m.WF
  tri : ∀ g, m.fAlive g = true → ¬ m.HoleFace g → m.sides g = 3
  hole : ∀ g, m.fAlive g = true → m.HoleFace g → m.SimpleHole g
  apart : ∀ h, m.hAlive h = true → m.HoleFace (m.hFace h) → ¬ m.HoleFace (m.hFace (m.hRev h))

/-- `m'` arises from `m` when all holes are closed with triangles -/
structure Mesh.ClosedUp (m m' : Mesh F) : Prop where
  wf : m'.WF
  /-- there are only triangles, and no flags -/
  tri : ∀ g, m'.fAlive g = true → m'.sides g = 3
  flag : ∀ h, m'.hAlive h = true → m'.hBd h = false
  /-- the triangles of `m` are still there, with the same corners and the same neighbours -/
  old : ∀ g, m.fAlive g = true → m'.fAlive g = true
  loop : ∀ g, m.fAlive g = true → ¬ m.HoleFace g → ∀ h, (m'.hAlive h = true ∧ m'.hFace h = g) ↔ (m.hAlive h = true ∧ m.hFace h = g)
  order : ∀ h, m.hAlive h = true → ¬ m.HoleFace (m.hFace h) → m'.hNext h = m.hNext h ∧ m'.hSrc h = m.hSrc h
  rev : ∀ h, m.hAlive h = true → ¬ m.HoleFace (m.hFace h) → ¬ m.HoleFace (m.hFace (m.hRev h)) → m'.hRev h = m.hRev h
  /-- beyond an edge of a hole there is now the last triangle of this hole or a triangle that is new -/
  rim : ∀ h, m.hAlive h = true → ¬ m.HoleFace (m.hFace h) → m.HoleFace (m.hFace (m.hRev h)) →
    m'.hFace (m'.hRev h) = m.hFace (m.hRev h) ∨ m.fAlive (m'.hFace (m'.hRev h)) = false
  /-- the vertices of `m` are still there, and exactly these are locked -/
  vert : ∀ v, m.vAlive v = true → m'.vAlive v = true
  lock : ∀ v, m'.vAlive v = true → (m'.vLock v = true ↔ m.vAlive v = true)
  still : ∀ v, m.vAlive v = true → (∀ g, m.fAlive g = true → m.HoleFace g → ¬ m.CornerOf g v) → m'.vPos v = m.vPos v

/-- `m'` arises from `m` when every hole is closed by a front of its own. Locks are not taken away, and flags may stay. -/
structure Mesh.FrontClosed (m m' : Mesh F) : Prop where
  wf : m'.WF
  /-- there are only triangles, and none of them counts as a hole -/
  tri : ∀ g, m'.fAlive g = true → m'.sides g = 3
  closed : ∀ g, m'.fAlive g = true → ¬ m'.HoleFace g
  /-- the triangles of `m` are still there, with the same corners and the same neighbours -/
  old : ∀ g, m.fAlive g = true → m'.fAlive g = true
  loop : ∀ g, m.fAlive g = true → ¬ m.HoleFace g → ∀ h, (m'.hAlive h = true ∧ m'.hFace h = g) ↔ (m.hAlive h = true ∧ m.hFace h = g)
  order : ∀ h, m.hAlive h = true → ¬ m.HoleFace (m.hFace h) → m'.hNext h = m.hNext h ∧ m'.hSrc h = m.hSrc h
  rev : ∀ h, m.hAlive h = true → ¬ m.HoleFace (m.hFace h) → ¬ m.HoleFace (m.hFace (m.hRev h)) → m'.hRev h = m.hRev h
  rim : ∀ h, m.hAlive h = true → ¬ m.HoleFace (m.hFace h) → m.HoleFace (m.hFace (m.hRev h)) →
    m'.hFace (m'.hRev h) = m.hFace (m.hRev h) ∨ m.fAlive (m'.hFace (m'.hRev h)) = false
  /-- the vertices of `m` are still there; locked are those that were locked and the corners of the holes -/
  vert : ∀ v, m.vAlive v = true → m'.vAlive v = true
  lock : ∀ v, m'.vAlive v = true → (m'.vLock v = true ↔ m.vAlive v = true ∧ (m.vLock v = true ∨ ∃ g, m.fAlive g = true ∧ m.HoleFace g ∧ m.CornerOf g v))
  still : ∀ v, m.vAlive v = true → (∀ g, m.fAlive g = true → m.HoleFace g → ¬ m.CornerOf g v) → m'.vPos v = m.vPos v

end TinyMesh
