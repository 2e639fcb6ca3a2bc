import Verif.Spec.Edit
import Verif.Spec.Average
import Verif.Spec.Curv
/-
What the remeshing loops look at when they decide about an edge.
-/
namespace TinyMesh
variable {F : Type}

/-- the length of the edge of `h`, for vertices at `p` -/
noncomputable def Mesh.lenOf (m : Mesh F) (p : Nat → E3) (h : Nat) : ℝ := ‖p (m.hSrc h) - p (m.hSrc (m.hNext h))‖

/-- no corner of the two faces at the edge of `h` is locked -/
def Mesh.Loose (m : Mesh F) (h : Nat) : Prop :=
  ∀ x, m.hAlive x = true → m.hFace x = m.hFace h ∨ m.hFace x = m.hFace (m.hRev h) → m.vLock (m.hSrc x) = false

/-- no half-edge of the two faces at the edge of `h` is flagged -/
def Mesh.Inner (m : Mesh F) (h : Nat) : Prop :=
  ∀ x, m.hAlive x = true → m.hFace x = m.hFace h ∨ m.hFace x = m.hFace (m.hRev h) → m.hBd x = false

/-- the degree a vertex should have: six, or four on the boundary -/
def Mesh.idealDeg (m : Mesh F) (v : Nat) : Int := if (m.outs v).any m.hBd then 4 else 6

/-- how far the degree of a vertex is from that -/
def Mesh.degDev (m : Mesh F) (v : Nat) : Nat := ((m.outDeg v : Int) - m.idealDeg v).natAbs

/-- the sum over the whole mesh -/
def Mesh.devSum (m : Mesh F) : Nat := (m.vs.map m.degDev).sum

end TinyMesh
