import Verif.Model.Queue
import Verif.Spec.Quadric
/-
What the queue of the simplification is about: the place an edge is contracted to, its cost, and what a priority queue does.
-/
namespace TinyMesh

/-- `x` is the place to which the edge of `h` is to be contracted: the point with the least sum of squared distances to the planes around
the two ends if the determinant of the quadratic part is at least `1e-8`, otherwise the midpoint -/
def Mesh.Target {F : Type} (m : Mesh F) (p : Nat → E3) (h : Nat) (x : E3) : Prop :=
  let a := m.hSrc h
  let b := m.hSrc (m.hNext h)
  ((m.hessAt p a + m.hessAt p b).det < 1 / 10 ^ 8 → x = (1 / 2 : ℝ) • (p a + p b)) ∧
  (1 / 10 ^ 8 ≤ (m.hessAt p a + m.hessAt p b).det → ∀ y, m.errAt p a x + m.errAt p b x ≤ m.errAt p a y + m.errAt p b y)

/-- the cost of contracting the edge of `h` to `x`: the sum of the squared distances of `x` to the planes around the two ends -/
noncomputable def Mesh.cost {F : Type} (m : Mesh F) (p : Nat → E3) (h : Nat) (x : E3) : ℝ :=
  m.errAt p (m.hSrc h) x + m.errAt p (m.hSrc (m.hNext h)) x

/-- Exact arithmetic for what the code takes from Eigen. -/
structure Solver4.Exact (S : Solver4 XR) : Prop where
  det : ∀ A : Matrix (Fin 4) (Fin 4) ℝ, S.det (fun i j => XR.fin (A i j)) = XR.fin A.det
  solve : ∀ A : Matrix (Fin 4) (Fin 4) ℝ, A.det ≠ 0 → ∃ x : Fin 4 → ℝ, A.mulVec x = ![0, 0, 0, 1] ∧
    S.solve (fun i j => XR.fin (A i j)) = fun i => XR.fin (x i)

/-- What `std::priority_queue` with `std::greater` guarantees: if the order of the values is defined (no value is NaN), all elements come
out, and none is greater than a later one. -/
def PopsLeast (pop : List (QEMNode XR) → List (QEMNode XR)) : Prop :=
  ∀ l, (∀ n ∈ l, n.value ≠ .nan) → (pop l).Perm l ∧ (pop l).Pairwise fun a b => a.gt b = false

end TinyMesh
