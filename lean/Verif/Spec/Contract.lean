import Verif.Spec.Quadric
import Verif.Spec.Edit
import Verif.Spec.Denoise
/-
What simplification looks at when it decides about an edge.
-/
namespace TinyMesh
variable {F : Type}

/-- the end of the edge between `a` and `b` that comes first on the triangle `f` -/
def Mesh.firstEnd (m : Mesh F) (a b f : Nat) : Nat :=
  if m.hSrc (m.fHe f) = a ∨ m.hSrc (m.fHe f) = b then m.hSrc (m.fHe f) else m.hSrc (m.hNext (m.fHe f))

/-- the normal of the triangle `f` turns by a right angle or more (up to `1e-12`) when the first end of the edge is moved to `x` -/
def Mesh.TurnsOver (m : Mesh F) (p : Nat → E3) (a b : Nat) (x : E3) (f : Nat) : Prop :=
  let n := m.areaVec p f
  let n' := m.areaVec (Function.update p (m.firstEnd a b f) x) f
  n ≠ 0 ∧ n' ≠ 0 ∧ inner ℝ n n' ≤ 1 / 10 ^ 12 * (‖n‖ * ‖n'‖)

/-- the half-edge `h` is to be contracted to `x`; `done` are the vertices that are not to be touched any more -/
structure Mesh.Contractible (m : Mesh F) (p : Nat → E3) (done : Nat → Prop) (h : Nat) (x : E3) : Prop where
  fresh : ¬ done (m.hSrc h) ∧ ¬ done (m.hSrc (m.hNext h))
  inside : ¬ m.AtBoundary (m.hSrc h) ∧ ¬ m.AtBoundary (m.hSrc (m.hNext h))
  degree : 4 ≤ m.outDeg (m.hSrc h) ∧ 4 ≤ m.outDeg (m.hSrc (m.hNext h))
  turn : ∀ f, f = m.hFace h ∨ f = m.hFace (m.hRev h) → ¬ m.TurnsOver p (m.hSrc h) (m.hSrc (m.hNext h)) x f
  thin : ∀ u, m.Joined (m.hSrc h) u → m.Joined (m.hSrc (m.hNext h)) u → 4 ≤ m.outDeg u

/-- how far the degrees are from six -/
def Mesh.sixSum (m : Mesh F) : Nat := (m.vs.map fun v => ((m.outDeg v : Int) - 6).natAbs).sum

end TinyMesh
