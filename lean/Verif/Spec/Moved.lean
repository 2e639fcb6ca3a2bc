import Verif.Spec.Motion
import Verif.Model.Lines
import Verif.Model.Queue
import Mathlib.LinearAlgebra.Matrix.Determinant.Basic
/-
Data that rigid motions turn and shift, beside vertices.
-/
namespace TinyMesh

/-- Exact arithmetic for what simplify.h takes from Eigen. -/
structure Solver4.ExactR (S : Solver4 ℝ) : Prop where
  det : ∀ A : Matrix (Fin 4) (Fin 4) ℝ, S.det A = A.det
  solve : ∀ A : Matrix (Fin 4) (Fin 4) ℝ, A.det ≠ 0 → A.mulVec (S.solve A) = ![0, 0, 0, 1]

namespace Motion

/-- the same curvatures with turned directions -/
def princ (g : Motion) (k : Principal ℝ) : Principal ℝ := ⟨k.kMax, k.kMin, g.vec k.tMax, g.vec k.tMin⟩

/-- the same halfedge with a moved target -/
def cand (g : Motion) (c : Nat × Vec3 ℝ) : Nat × Vec3 ℝ := (c.1, g.pt c.2)

/-- the same halfedge and cost with a moved target -/
def node (g : Motion) (n : QEMNode ℝ) : QEMNode ℝ := ⟨n.value, n.he, g.pt n.v⟩

end Motion
end TinyMesh
