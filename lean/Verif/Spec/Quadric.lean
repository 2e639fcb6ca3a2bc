import Verif.Spec.Feature
import Verif.Spec.Smooth
import Verif.Model.Simplify
import Mathlib.LinearAlgebra.Matrix.Determinant.Basic
import Mathlib.Data.Matrix.Mul
/-
What quadric error metrics mean: sums of squared distances to planes.
-/
namespace TinyMesh

/-- the normal of a triangle, scaled as the code does it: `N / (|N| + 1e-12)` -/
noncomputable def planeNormal (a b c : E3) : E3 := (‖triNormal a b c‖ + 1 / 10 ^ 12)⁻¹ • triNormal a b c

/-- the squared distance of `x` from the plane of a triangle (up to the factor `(|N| / (|N| + 1e-12))²`) -/
noncomputable def planeErr (a b c x : E3) : ℝ := inner ℝ (planeNormal a b c) (x - a) ^ 2

/-- the inner faces of `m` that have `v` as a corner, each given by its first half-edge -/
noncomputable def Mesh.innerAt {F : Type} (m : Mesh F) (v : Nat) : List Nat :=
  open Classical in (m.fs.map m.fHe).filter fun h =>
    (∀ h', m.hAlive h' = true → m.hFace h' = m.hFace h → m.hBd h' = false) ∧ ∃ h', m.hAlive h' = true ∧ m.hFace h' = m.hFace h ∧ m.hSrc h' = v

/-- the error of placing `v` at `x`: the sum of the squared distances to the planes of the inner faces around `v` -/
noncomputable def Mesh.errAt {F : Type} (m : Mesh F) (p : Nat → E3) (v : Nat) (x : E3) : ℝ :=
  ((m.innerAt v).map fun h => planeErr (p (m.hSrc h)) (p (m.hSrc (m.hNext h))) (p (m.hSrc (m.hNext (m.hNext h)))) x).sum

/-- the matrix of the quadratic part of the error -/
noncomputable def Mesh.hessAt {F : Type} (m : Mesh F) (p : Nat → E3) (v : Nat) : Matrix (Fin 3) (Fin 3) ℝ :=
  ((m.innerAt v).map fun h =>
    let n := planeNormal (p (m.hSrc h)) (p (m.hSrc (m.hNext h))) (p (m.hSrc (m.hNext (m.hNext h))))
    Matrix.of fun i j => n i * n j).sum

/-- Exact arithmetic for what the code takes from Eigen: the determinant, and the solution of `Q x = (0, 0, 0, 1)` if there is
exactly one. -/
structure Solver.Exact (S : Solver XR) : Prop where
  det : ∀ A : Matrix (Fin 4) (Fin 4) ℝ, S.det (fun i j => XR.fin (A i j)) = XR.fin A.det
  solve : ∀ A : Matrix (Fin 4) (Fin 4) ℝ, A.det ≠ 0 → ∃ x : Fin 4 → ℝ, A.mulVec x = ![0, 0, 0, 1] ∧
    S.solve (fun i j => XR.fin (A i j)) = ⟨XR.fin (x 0), XR.fin (x 1), XR.fin (x 2)⟩

end TinyMesh
