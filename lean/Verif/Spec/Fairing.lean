import Verif.Model.Fairing
import Verif.Spec.Operators
import Mathlib.LinearAlgebra.Matrix.Determinant.Basic
/-
Implicit fairing in exact arithmetic.
-/
namespace TinyMesh

/-- a solver that finds the solution of every regular system of finite numbers -/
def LinSolve.Exact (solve : LinSolve XR) : Prop :=
  ∀ (n : Nat) (A : Matrix (Fin n) (Fin n) ℝ) (b : Fin n → ℝ) (A' : Nat → Nat → XR) (b' : Nat → XR), A.det ≠ 0 →
    (∀ i j : Fin n, A' i j = .fin (A i j)) → (∀ i : Fin n, b' i = .fin (b i)) →
    ∃ x : Fin n → ℝ, A.mulVec x = b ∧ ∀ i : Fin n, solve n A' b' i = .fin (x i)

/-- the share of the half-edge `h` in the cotangent weights of the half-edges that leave the same vertex -/
noncomputable def Mesh.share {F : Type} (m : Mesh F) (p : Nat → E3) (h : Nat) : ℝ := m.cotOf p h / m.weightOut (m.cotOf p) (m.hSrc h)

/-- the cotangent weights are not negative, and at every vertex one of them is positive -/
structure Mesh.Weighted {F : Type} (m : Mesh F) (p : Nat → E3) : Prop where
  nonneg : ∀ h, m.hAlive h = true → 0 ≤ m.cotOf p h
  pos : ∀ v, m.vAlive v = true → ∃ h, m.hAlive h = true ∧ m.hSrc h = v ∧ 0 < m.cotOf p h

/-- `q` is the result of one step of backward Euler with step size `eps` for the normalised cotangent Laplacian of the positions `p`:
the step from `p v` to `q v` is `eps` times the difference of the weighted mean of the new neighbours and `q v` -/
def Mesh.Faired {F : Type} (m : Mesh F) (eps : ℝ) (p q : Nat → E3) : Prop :=
  ∀ v, m.vAlive v = true → q v - p v =
    eps • (((m.hes.filter fun h => m.hSrc h == v).map fun h => m.share p h • q (m.hSrc (m.hNext h))).sum - q v)

end TinyMesh
