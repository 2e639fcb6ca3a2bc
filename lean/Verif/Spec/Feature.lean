import Verif.Model.Feature
import Verif.Spec.Geom
import Mathlib.LinearAlgebra.Matrix.Defs
import Mathlib.LinearAlgebra.CrossProduct
/-
Notions used to state the properties of curvature, rotation and areas.
-/
namespace TinyMesh

def Mat2.fin (M : Mat2 ℝ) : Mat2 XR := ⟨.fin M.m00, .fin M.m01, .fin M.m10, .fin M.m11⟩

/-- `(x, y)` is an eigenvector of `M` for the eigenvalue `k` -/
def Mat2.Eigen (M : Mat2 ℝ) (k x y : ℝ) : Prop :=
  (x ≠ 0 ∨ y ≠ 0) ∧ M.m00 * x + M.m01 * y = k * x ∧ M.m10 * x + M.m11 * y = k * y

/-- the tangent vector `p` is an eigenvector of `M`, given in the basis `u`, `v`, for the eigenvalue `k` -/
def Mat2.EigenDir (M : Mat2 ℝ) (u v : E3) (k : ℝ) (p : E3) : Prop := ∃ x y, p = x • u + y • v ∧ M.Eigen k x y

/-- the matrix has finite entries, those of `A` -/
def Mat3.Is (R : Mat3 XR) (A : Matrix (Fin 3) (Fin 3) ℝ) : Prop := ∀ i j, R i j = .fin (A i j)

/-- area of the triangle with the given corners -/
noncomputable def triArea (p q r : E3) : ℝ := ‖WithLp.toLp 2 (crossProduct (q - p).ofLp (r - p).ofLp)‖ / 2

/-- normal vector of the triangle with the given corners -/
noncomputable def triNormal (p q r : E3) : E3 := WithLp.toLp 2 (crossProduct (q - p).ofLp (r - p).ofLp)

end TinyMesh
