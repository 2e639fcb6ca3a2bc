import Verif.Model.History
import Verif.Spec.Edit
/-
Which sequences of calls are considered, and what must hold between the first and the last mesh.
-/
namespace TinyMesh
variable {F : Type}

/-- The argument of the call is a half-edge of the mesh; an edge to be flipped has triangles on both sides. -/
def Edit.okAt (m : Mesh F) : Edit → Prop
  | .split h => m.hAlive h = true
  | .collapse h => m.hAlive h = true
  | .flip h => m.hAlive h = true ∧ m.OnTri h ∧ m.OnTri (m.hRev h)

/-- Every call of the sequence has an admissible argument at the time it is made. -/
def Allowed [Scalar F] : Mesh F → List Edit → Prop
  | _, [] => True
  | m, e :: es => e.okAt m ∧ ∀ b m', e.run m = .ok b m' → Allowed m' es

/-- A range of positions that contains no NaN and is closed under midpoints. For doubles: the vectors whose components do
not exceed half of the largest number. -/
structure PosRange [Scalar F] (N : Vec3 F → Prop) : Prop where
  refl : ∀ p, N p → p.eq p = true
  mid : ∀ p q, N p → N q → N (Vec3.smul (Scalar.lit 1 2) (Vec3.add p q))

/-- All positions of a mesh are in the range `N`. -/
def Mesh.InRange (N : Vec3 F → Prop) (m : Mesh F) : Prop := ∀ v, m.vAlive v = true → N (m.vPos v)

/-- Elements keep their identity: an element of the later mesh with an address that was in use before is the same element,
with the same position and lock. -/
structure SameElements (m m' : Mesh F) : Prop where
  h : ∀ x, m'.hAlive x = true → x < m.hFresh → m.hAlive x = true
  v : ∀ x, m'.vAlive x = true → x < m.vFresh → m.vAlive x = true
  f : ∀ x, m'.fAlive x = true → x < m.fFresh → m.fAlive x = true
  pos : ∀ x, m.vAlive x = true → m'.vAlive x = true → m'.vPos x = m.vPos x
  lock : ∀ x, m.vAlive x = true → m'.vAlive x = true → m'.vLock x = m.vLock x
  hF : m.hFresh ≤ m'.hFresh
  vF : m.vFresh ≤ m'.vFresh
  fF : m.fFresh ≤ m'.fFresh

end TinyMesh
