import Verif.Spec.History
/-
What the remeshing functions must preserve.
-/
namespace TinyMesh
variable {F : Type}

/-- the locked vertices of `m` are still there, still locked and still in their place -/
def KeepsLocked (m m' : Mesh F) : Prop :=
  ∀ v, m.vAlive v = true → m.vLock v = true → m'.vAlive v = true ∧ m'.vLock v = true ∧ m'.vPos v = m.vPos v

/-- twice the Euler characteristic `V - E + F`, with two half-edges for every edge -/
def Mesh.euler2 (m : Mesh F) : Int := 2 * m.vs.length - m.hes.length + 2 * m.fs.length

/-- no vertex, half-edge or face of the later mesh has the address of an element that had been freed before -/
structure NoReuse (m m' : Mesh F) : Prop where
  h : ∀ x, m'.hAlive x = true → x < m.hFresh → m.hAlive x = true
  v : ∀ x, m'.vAlive x = true → x < m.vFresh → m.vAlive x = true
  f : ∀ x, m'.fAlive x = true → x < m.fFresh → m.fAlive x = true
  hF : m.hFresh ≤ m'.hFresh
  vF : m.vFresh ≤ m'.vFresh
  fF : m.fFresh ≤ m'.fFresh

end TinyMesh
