import Verif.Spec.Average
import Verif.Spec.Feature
import Mathlib.Analysis.SpecialFunctions.Trigonometric.Basic
import Mathlib.Data.Matrix.Mul
import Mathlib.LinearAlgebra.Matrix.Symmetric
import Mathlib.Geometry.Euclidean.Angle.Unoriented.Basic
/-
Graph Laplacians of a mesh with weighted half-edges.
-/
namespace TinyMesh
variable {F : Type}

/-- total weight of the half-edges that leave `u` -/
noncomputable def Mesh.weightOut (m : Mesh F) (w : Nat → ℝ) (u : Nat) : ℝ :=
  ((m.hes.filter fun h => m.hSrc h == u).map w).sum

/-- total weight of the half-edges from `u` to `v` -/
noncomputable def Mesh.weightTo (m : Mesh F) (w : Nat → ℝ) (u v : Nat) : ℝ :=
  ((m.hes.filter fun h => m.hSrc h == u && m.hSrc (m.hNext h) == v).map w).sum

/-- the matrix is the Laplacian for the weights `w`: all coefficients are finite; off the diagonal stands the negative weight between
the two vertices, and the diagonal has the total weight added -/
def Mesh.IsLaplacian (m : Mesh XR) (w : Nat → ℝ) (L : Nat → Nat → XR) : Prop :=
  ∀ i j u v, m.vs[i]? = some u → m.vs[j]? = some v → L i j = .fin ((if i = j then m.weightOut w u else 0) - m.weightTo w u v)

/-- the cotangent of the angle at `c` between `a` and `b`; the sine is replaced by `10⁻⁶` over the product of the side lengths
where the triangle is (nearly) degenerate -/
noncomputable def cotAt (a b c : E3) : ℝ :=
  inner ℝ (a - c) (b - c) / max (Real.sqrt (‖a - c‖ ^ 2 * ‖b - c‖ ^ 2 - inner ℝ (a - c) (b - c) ^ 2)) (1 / 10 ^ 6)

/-- the cotangent weight of a half-edge: half the cotangents of the two opposite angles -/
noncomputable def Mesh.cotOf (m : Mesh F) (p : Nat → E3) (h : Nat) : ℝ :=
  (cotAt (p (m.hSrc h)) (p (m.hSrc (m.hNext h))) (p (m.hSrc (m.hNext (m.hNext h)))) +
    cotAt (p (m.hSrc h)) (p (m.hSrc (m.hNext h))) (p (m.hSrc (m.hNext (m.hNext (m.hRev h)))))) / 2

/-- mean length of the edges; every edge counts twice in the sum and in the number of half-edges -/
noncomputable def Mesh.meanLen (m : Mesh F) (p : Nat → E3) : ℝ :=
  (m.hes.map fun h => dist (p (m.hSrc h)) (p (m.hSrc (m.hNext h)))).sum / m.hes.length

/-- the Gaussian weight of a half-edge for the scale `t` -/
noncomputable def Mesh.gaussOf (m : Mesh F) (p : Nat → E3) (t : ℝ) (h : Nat) : ℝ :=
  Real.exp (-(dist (p (m.hSrc h)) (p (m.hSrc (m.hNext h))) ^ 2 / (4 * t))) / (4 * Real.pi * t)

/-- the coefficients are those of a real matrix; there is one row for each vertex -/
def Mesh.HasMatrix (m : Mesh F) (L : Nat → Nat → XR) (A : Matrix (Fin m.vs.length) (Fin m.vs.length) ℝ) : Prop :=
  ∀ i j : Fin m.vs.length, L i j = .fin (A i j)

/-- the energy of a function on the vertices: half the weighted squared differences along all half-edges -/
noncomputable def Mesh.energy (m : Mesh F) (w : Nat → ℝ) (x : Nat → ℝ) : ℝ :=
  (m.hes.map fun h => w h * (x (m.hSrc h) - x (m.hSrc (m.hNext h))) ^ 2).sum / 2

open Classical in
/-- the angle between the normals of the two triangles at a half-edge, both with the edge first; zero where one is degenerate -/
noncomputable def Mesh.angleOf (m : Mesh F) (p : Nat → E3) (h : Nat) : ℝ :=
  let a := p (m.hSrc (m.hNext (m.hNext h)))
  let b := p (m.hSrc h)
  let c := p (m.hSrc (m.hNext h))
  let d := p (m.hSrc (m.hNext (m.hNext (m.hRev h))))
  if triNormal a b c = 0 ∨ triNormal d b c = 0 then 0 else InnerProductGeometry.angle (triNormal a b c) (triNormal d b c)

/-- area of the triangle to the left of a half-edge -/
noncomputable def Mesh.areaOf (m : Mesh F) (p : Nat → E3) (h : Nat) : ℝ :=
  triArea (p (m.hSrc h)) (p (m.hSrc (m.hNext h))) (p (m.hSrc (m.hNext (m.hNext h))))

/-- the list has one half-edge of every edge -/
structure Mesh.OnePerEdge (m : Mesh F) (S : List Nat) : Prop where
  nodup : S.Nodup
  alive : ∀ h ∈ S, m.hAlive h = true
  one : ∀ h ∈ S, m.hRev h ∉ S
  all : ∀ h, m.hAlive h = true → h ∈ S ∨ m.hRev h ∈ S

end TinyMesh
